import Verif.Model.Iter

/-!
# The piecewise linear complex (src/plc.rs)

The functions that build a `Plc` and the iterators that read it.  Positions have an arbitrary
type `P`; the plane of a face has an arbitrary type `Q` and is computed from the positions by a
function that is a parameter (`Geom`), made concrete in `Verif/Model/PlcGeo.lean`.

Ids are natural numbers and `idMax` is the invalid id.  A panic is `none`; what a panicking call
leaves behind is not modelled.
-/

namespace Tet

/-- Write access `self.list[id].field = value` (src/id_map.rs:244-249): panics if there is no
such element. -/
def IdMap.upd {A : Type} (m : IdMap A) (k : Nat) (f : A → A) : Option (IdMap A) :=
  if (m.get k).isSome then some (m.modify k f) else none

namespace Plc

/-- `Vertex`, src/plc.rs:40-50 -/
structure Vertex (P V : Type) where
  edgeOut : Nat
  edgeIn : Nat
  ring : Nat
  position : P
  value : V

/-- `Vertex::new`, src/plc.rs:53-61 -/
def Vertex.new {P V : Type} (position : P) (value : V) : Vertex P V :=
  ⟨idMax, idMax, idMax, position, value⟩

/-- `Edge`, src/plc.rs:76-86 -/
structure Edge (E : Type) where
  vertices : Nat × Nat
  nextOut : Nat
  nextIn : Nat
  prevOut : Nat
  prevIn : Nat
  faceEdge : Nat
  value : E

/-- `Edge::new`, src/plc.rs:89-99 -/
def Edge.new {E : Type} (vertices : Nat × Nat) (value : E) : Edge E :=
  ⟨vertices, idMax, idMax, idMax, idMax, idMax, value⟩

/-- `FaceEdge`, src/plc.rs:113-125 -/
structure FaceEdge where
  edge : Nat
  ring : Nat
  next : Nat
  prev : Nat
  nextOn : Nat
  prevOn : Nat

/-- `FaceEdge::new`, src/plc.rs:128-137 -/
def FaceEdge.new (edge ring : Nat) : FaceEdge := ⟨edge, ring, idMax, idMax, idMax, idMax⟩

/-- `RingElement`, src/plc.rs:140-144 -/
inductive RingElement
  | faceEdge (fe : Nat)
  | vertex (v : Nat)
  deriving DecidableEq

/-- `FaceRing`, src/plc.rs:147-155 -/
structure FaceRing where
  element : RingElement
  face : Nat
  next : Nat
  prev : Nat

/-- `FaceRing::new`, src/plc.rs:158-165 -/
def FaceRing.new (face : Nat) : FaceRing := ⟨.faceEdge idMax, face, idMax, idMax⟩

/-- `Face`, src/plc.rs:196-204 -/
structure Face (Q F : Type) where
  ring : Nat
  plane : Q
  value : F

/-- What the code computes from positions: the plane a new face starts with
(src/plc.rs:210-213), and the plane `calc_face_plane` computes from the points of the rings and
the end points of the edges (src/plc.rs:529-546). -/
structure Geom (P Q : Type) where
  initial : Q
  plane : List P → List (P × P) → Q

end Plc

/-- `Plc`, src/plc.rs:258-272.  The hash map is a function.  Of the three default functions only
`default_edge` is used outside `from_obj`; it is taken to be pure. -/
structure Plc (P Q V E F : Type) where
  vertices : IdMap (Plc.Vertex P V)
  edges : IdMap (Plc.Edge E)
  faceEdges : IdMap Plc.FaceEdge
  rings : IdMap Plc.FaceRing
  faces : IdMap (Plc.Face Q F)
  edgeMap : Nat × Nat → Option Nat
  defaultEdge : E

namespace Plc
variable {P Q V E F : Type}

/-- `Plc::new`, src/plc.rs:276-292 -/
def new (defaultEdge : E) : Plc P Q V E F :=
  ⟨IdMap.empty, IdMap.empty, IdMap.empty, IdMap.empty, IdMap.empty, fun _ => none, defaultEdge⟩

/-- `Plc::edge_id`, src/plc.rs:310-312 -/
def edgeId (p : Plc P Q V E F) (vs : Nat × Nat) : Option Nat := p.edgeMap vs

/-! ## Iterators -/

/-- `Face::rings`, src/plc.rs:224-231: the value and the successor function of the circular
iterator; it starts at the `ring` of the face. -/
def ringsNext (p : Plc P Q V E F) : CircIter Nat → Option (Option (Nat × FaceRing) × CircIter Nat) :=
  CircIter.next p.rings.get fun r => (p.rings.get r).map (·.next)

/-- The circular iterator over face edges used in `FaceRing::vertices` and `FaceRing::edges`,
src/plc.rs:170-175, 184-189 -/
def faceEdgesNext (p : Plc P Q V E F) :
    CircIter Nat → Option (Option (Nat × FaceEdge) × CircIter Nat) :=
  CircIter.next p.faceEdges.get fun fe => (p.faceEdges.get fe).map (·.next)

/-- `FaceRingVertices`, src/plc.rs:911-921 -/
inductive RingVertices (P V : Type)
  | single (v : Option (Nat × Vertex P V))
  | multiple (it : CircIter Nat)

/-- `FaceRing::vertices`, src/plc.rs:168-179 -/
def ringVertices (p : Plc P Q V E F) (ring : FaceRing) : Option (RingVertices P V) :=
  match ring.element with
  | .faceEdge fe => some (.multiple (CircIter.new fe))
  | .vertex v => (p.vertices.get v).map fun x => .single (some (v, x))

/-- `FaceRingVertices::next`, src/plc.rs:923-939 -/
def ringVerticesNext (p : Plc P Q V E F) :
    RingVertices P V → Option (Option (Nat × Vertex P V) × RingVertices P V)
  | .single v => some (v, .single none)
  | .multiple it => do
    let (r, it) ← p.faceEdgesNext it
    match r with
    | none => return (none, .multiple it)
    | some (_, fe) =>
      let e ← p.edges.get fe.edge
      let x ← p.vertices.get e.vertices.1
      return (some (e.vertices.1, x), .multiple it)

/-- `FaceRingEdges`, src/plc.rs:942-952 -/
inductive RingEdges
  | single
  | multiple (it : CircIter Nat)

/-- `FaceRing::edges`, src/plc.rs:182-193 -/
def ringEdges (ring : FaceRing) : RingEdges :=
  match ring.element with
  | .faceEdge fe => .multiple (CircIter.new fe)
  | .vertex _ => .single

/-- `FaceRingEdges::next`, src/plc.rs:954-967 -/
def ringEdgesNext (p : Plc P Q V E F) : RingEdges → Option (Option (Nat × Edge E) × RingEdges)
  | .single => some (none, .single)
  | .multiple it => do
    let (r, it) ← p.faceEdgesNext it
    match r with
    | none => return (none, .multiple it)
    | some (_, fe) =>
      let e ← p.edges.get fe.edge
      return (some (fe.edge, e), .multiple it)

/-- `Face::vertices`, `FaceVerticesByRing::next`, src/plc.rs:234-236, 899-908 -/
def faceVerticesNext (p : Plc P Q V E F) (it : CircIter Nat) :
    Option (Option (RingVertices P V) × CircIter Nat) := do
  let (r, it) ← p.ringsNext it
  match r with
  | none => return (none, it)
  | some (_, ring) =>
    let vs ← p.ringVertices ring
    return (some vs, it)

/-- Running an iterator to its end (`collect`, `for`).  The first argument bounds the number of
elements; `none` also if there are more (the source would not terminate if there were always
more). -/
def toList {σ α : Type} (next : σ → Option (Option α × σ)) : Nat → σ → Option (List α)
  | 0, _ => none
  | n + 1, s => do
    let (r, s) ← next s
    match r with
    | none => return []
    | some a =>
      let as ← toList next n s
      return a :: as

/-- A bound for the length of the circular lists: there are not more elements than slots. -/
def bound (p : Plc P Q V E F) : Nat :=
  p.rings.map.nextPushIndex + p.faceEdges.map.nextPushIndex + 2

/-- `face.rings(self).collect()` -/
def faceRings (p : Plc P Q V E F) (face : Face Q F) : Option (List (Nat × FaceRing)) :=
  toList p.ringsNext p.bound (CircIter.new face.ring)

/-- `ring.vertices(self).collect()` -/
def ringVertexList (p : Plc P Q V E F) (ring : FaceRing) : Option (List (Nat × Vertex P V)) := do
  toList p.ringVerticesNext p.bound (← p.ringVertices ring)

/-- `ring.edges(self).collect()` -/
def ringEdgeList (p : Plc P Q V E F) (ring : FaceRing) : Option (List (Nat × Edge E)) :=
  toList p.ringEdgesNext p.bound (ringEdges ring)

/-- `face.vertices(self).map(Vec::from_iter).collect()` -/
def faceVertexLists (p : Plc P Q V E F) (face : Face Q F) :
    Option (List (List (Nat × Vertex P V))) := do
  let rs ← p.faceRings face
  rs.mapM fun r => p.ringVertexList r.2

/-! ## Building -/

/-- `Plc::add_vertex`, src/plc.rs:360-362 -/
def addVertex (p : Plc P Q V E F) (position : P) (value : V) : Option (Plc P Q V E F × Nat) := do
  let (vertices, id) ← p.vertices.insert (Vertex.new position value)
  return ({ p with vertices }, id)

/-- The source links, src/plc.rs:374-386 -/
def linkOut (vl : IdMap (Vertex P V)) (el : IdMap (Edge E)) (v id : Nat) :
    Option (IdMap (Vertex P V) × IdMap (Edge E)) := do
  let outId := (← vl.get v).edgeOut
  if outId = idMax then
    let vl ← vl.upd v fun x => { x with edgeOut := id }
    let el ← el.upd id fun x => { x with nextOut := id }
    let el ← el.upd id fun x => { x with prevOut := id }
    return (vl, el)
  else
    let prev := (← el.get outId).prevOut
    let el ← el.upd prev fun x => { x with nextOut := id }
    let el ← el.upd outId fun x => { x with prevOut := id }
    let el ← el.upd id fun x => { x with nextOut := outId }
    let el ← el.upd id fun x => { x with prevOut := prev }
    return (vl, el)

/-- The target links, src/plc.rs:388-400 -/
def linkIn (vl : IdMap (Vertex P V)) (el : IdMap (Edge E)) (v id : Nat) :
    Option (IdMap (Vertex P V) × IdMap (Edge E)) := do
  let inId := (← vl.get v).edgeIn
  if inId = idMax then
    let vl ← vl.upd v fun x => { x with edgeIn := id }
    let el ← el.upd id fun x => { x with nextIn := id }
    let el ← el.upd id fun x => { x with prevIn := id }
    return (vl, el)
  else
    let prev := (← el.get inId).prevIn
    let el ← el.upd prev fun x => { x with nextIn := id }
    let el ← el.upd inId fun x => { x with prevIn := id }
    let el ← el.upd id fun x => { x with nextIn := inId }
    let el ← el.upd id fun x => { x with prevIn := prev }
    return (vl, el)

/-- `Plc::add_new_edge`, src/plc.rs:366-403 -/
def addNewEdge (vl : IdMap (Vertex P V)) (el : IdMap (Edge E)) (vs : Nat × Nat) (value : E) :
    Option (IdMap (Vertex P V) × IdMap (Edge E) × Nat) := do
  let (el, id) ← el.insert (Edge.new vs value)
  let (vl, el) ← linkOut vl el vs.1 id
  let (vl, el) ← linkIn vl el vs.2 id
  return (vl, el, id)

/-- The vacant case of `add_edge` and `add_edge_if_absent`, src/plc.rs:409-413, 427-431 -/
def addVacant (p : Plc P Q V E F) (vs : Nat × Nat) (value : E) : Option (Plc P Q V E F × Nat) := do
  let (vertices, edges, id) ← addNewEdge p.vertices p.edges vs value
  return ({ p with vertices, edges, edgeMap := Function.update p.edgeMap vs (some id) }, id)

/-- `Plc::add_edge`, src/plc.rs:407-421 -/
def addEdge (p : Plc P Q V E F) (vs : Nat × Nat) (value : E) : Option (Plc P Q V E F × Nat) :=
  match p.edgeMap vs with
  | none => p.addVacant vs value
  | some id => do
    let edges ← p.edges.upd id fun x => { x with value }
    return ({ p with edges }, id)

/-- `Plc::add_edge_if_absent`, src/plc.rs:425-435 -/
def addEdgeIfAbsent (p : Plc P Q V E F) (vs : Nat × Nat) (value : E) :
    Option (Plc P Q V E F × Nat) :=
  match p.edgeMap vs with
  | none => p.addVacant vs value
  | some id => some (p, id)

/-- Linking a face edge on its edge, src/plc.rs:489-500 -/
def linkOn (el : IdMap (Edge E)) (fl : IdMap FaceEdge) (edge fe : Nat) :
    Option (IdMap (Edge E) × IdMap FaceEdge) := do
  let nextOn := (← el.get edge).faceEdge
  if nextOn = idMax then
    let el ← el.upd edge fun x => { x with faceEdge := fe }
    let fl ← fl.upd fe fun x => { x with nextOn := fe }
    let fl ← fl.upd fe fun x => { x with prevOn := fe }
    return (el, fl)
  else
    let prevOn := (← fl.get nextOn).prevOn
    let fl ← fl.upd nextOn fun x => { x with prevOn := fe }
    let fl ← fl.upd prevOn fun x => { x with nextOn := fe }
    let fl ← fl.upd fe fun x => { x with nextOn := nextOn }
    let fl ← fl.upd fe fun x => { x with prevOn := prevOn }
    return (el, fl)

/-- The variables of the loop over the vertices of a ring, src/plc.rs:466-470 -/
structure EdgeLoop (P Q V E F : Type) where
  plc : Plc P Q V E F
  prevVertex : Nat
  firstFe : Nat
  prevFe : Nat

/-- The body of the loop over the vertices of a ring, src/plc.rs:477-503 -/
def edgeStep (ring : Nat) (s : EdgeLoop P Q V E F) (vertex : Nat) :
    Option (EdgeLoop P Q V E F) := do
  let (p, edge) ← s.plc.addEdgeIfAbsent (s.prevVertex, vertex) s.plc.defaultEdge
  let (fl, fe) ← p.faceEdges.insert (FaceEdge.new edge ring)
  let (firstFe, rings, fl) ←
    if s.firstFe = idMax then do
      let rings ← p.rings.upd ring fun x => { x with element := .faceEdge fe }
      pure (fe, rings, fl)
    else do
      let fl ← fl.upd s.prevFe fun x => { x with next := fe }
      let fl ← fl.upd fe fun x => { x with prev := s.prevFe }
      pure (s.firstFe, p.rings, fl)
  let (edges, fl) ← linkOn p.edges fl edge fe
  return ⟨{ p with edges, rings, faceEdges := fl }, vertex, firstFe, fe⟩

/-- A ring of more than one vertex, src/plc.rs:468-508 -/
def addCycle (p : Plc P Q V E F) (ring first second : Nat) (rest : List Nat) :
    Option (Plc P Q V E F) := do
  let s ← (second :: rest ++ [first]).foldlM (edgeStep ring) ⟨p, first, idMax, idMax⟩
  let fl ← s.plc.faceEdges.upd s.prevFe fun x => { x with next := s.firstFe }
  let fl ← fl.upd s.firstFe fun x => { x with prev := s.prevFe }
  return { s.plc with faceEdges := fl }

/-- A ring of one vertex, src/plc.rs:509-513 -/
def addIsolated (p : Plc P Q V E F) (ring v : Nat) : Option (Plc P Q V E F) := do
  let rings ← p.rings.upd ring fun x => { x with element := .vertex v }
  let vertices ← p.vertices.upd v fun x => { x with ring }
  return { p with rings, vertices }

/-- The variables of the loop over the rings, src/plc.rs:448-449 -/
structure RingLoop (P Q V E F : Type) where
  plc : Plc P Q V E F
  firstRing : Nat
  prevRing : Nat

/-- The body of the loop over the rings, src/plc.rs:451-516.  The first `none` is the `expect` in
lines 463-465. -/
def ringStep (face : Nat) (s : RingLoop P Q V E F) (vs : List Nat) :
    Option (RingLoop P Q V E F) := do
  let (rings, ring) ← s.plc.rings.insert (FaceRing.new face)
  let p := { s.plc with rings }
  let (p, firstRing) ←
    if s.firstRing = idMax then do
      let faces ← p.faces.upd face fun x => { x with ring }
      pure ({ p with faces }, ring)
    else do
      let rings ← p.rings.upd s.prevRing fun x => { x with next := ring }
      let rings ← rings.upd ring fun x => { x with prev := s.prevRing }
      pure ({ p with rings }, s.firstRing)
  let p ← match vs with
    | [] => none
    | [v] => p.addIsolated ring v
    | first :: second :: rest => p.addCycle ring first second rest
  return ⟨p, firstRing, ring⟩

/-- `Plc::calc_face_plane`, src/plc.rs:526-547 -/
def calcFacePlane (g : Geom P Q) (p : Plc P Q V E F) (id : Nat) : Option (Plc P Q V E F) := do
  let face ← p.faces.get id
  let rings ← p.faceRings face
  let vss ← rings.mapM fun r => p.ringVertexList r.2
  let ess ← rings.mapM fun r => p.ringEdgeList r.2
  let ends ← ess.flatten.mapM fun e => do
    let x ← p.vertices.get e.2.vertices.1
    let y ← p.vertices.get e.2.vertices.2
    return (x.position, y.position)
  let faces ← p.faces.upd id fun x =>
    { x with plane := g.plane (vss.flatten.map (·.2.position)) ends }
  return { p with faces }

/-- `Plc::add_face`, src/plc.rs:440-524 -/
def addFace (g : Geom P Q) (p : Plc P Q V E F) (rings : List (List Nat)) (value : F) :
    Option (Plc P Q V E F × Nat) := do
  let (faces, id) ← p.faces.insert ⟨idMax, g.initial, value⟩
  let s ← rings.foldlM (ringStep id) ⟨{ p with faces }, idMax, idMax⟩
  let rl ← s.plc.rings.upd s.prevRing fun x => { x with next := s.firstRing }
  let rl ← rl.upd s.firstRing fun x => { x with prev := s.prevRing }
  let p ← calcFacePlane g { s.plc with rings := rl } id
  return (p, id)

end Plc
end Tet
