import Verif.Model.Plc

/-!
# Validating a piecewise linear complex (src/plc.rs:615-695, src/plc/intersect.rs)

The geometric tests are functions that are parameters (`Tests`, `Boxes`), made concrete in
`Verif/Model/PlcGeo.lean`.  The bounding volume tree is the third-party `ncollide3d::BVT`; here it
is a function from the leaves to the pairs of leaves it shows to the visitor, in this order.

A panic is `none`.
-/

namespace Tet.Plc

/-- `Element`, src/plc.rs:883-888 -/
inductive Element
  | vertex (v : Nat)
  | edge (e : Nat)
  | face (f : Nat)
  deriving DecidableEq, Repr

/-- `ValidateReason`, src/plc.rs:872-881 -/
inductive Reason (D : Type)
  | degenerateFace (faces : List Nat)
  | twistedFace (faces : List (Nat × List (Nat × D)))
  | intersects (pairs : List (Element × Element × D))
  deriving DecidableEq, Repr

/-- The geometric tests, with the tolerance built in.  `P` are points, `Q` planes and `D` distances.
* `twist`: the distance of a point from a plane, if at least half the tolerance (src/plc.rs:652-655)
* `vv`: the distance of two points, if too small (src/plc/intersect.rs:98-104)
* `ve`: the distance of a point from a segment, if too small (src/plc/intersect.rs:112-118)
* `ee`: the distance of two segments, if too small (src/plc/intersect.rs:129-133)
* `vf`: the distance of a point from a plane, if too small (src/plc/intersect.rs:154-161)
* `ef`: the point where a segment meets a plane, if any (src/plc/intersect.rs:184-194)
* `inFace`: `point_in_face`
* `zero`: the distance 0.0 -/
structure Tests (P Q D : Type) where
  twist : Q → P → Option D
  vv : P → P → Option D
  ve : P → P × P → Option D
  ee : P × P → P × P → Option D
  vf : Q → P → Option D
  ef : Q → P × P → Option P
  inFace : Q → P → List (List P) → Bool
  zero : D

/-- Bounding boxes of points, widened by the tolerance, and whether two of them intersect. -/
structure Boxes (P B : Type) where
  box : List P → B
  meet : B → B → Bool

variable {P Q V E F D B : Type}

/-- `ring.vertices(self).count() >= 3` for some ring, src/plc.rs:622-625 -/
def fullFace (p : Plc P Q V E F) (face : Face Q F) : Option Bool := do
  let rs ← p.faceRings face
  let vss ← rs.mapM fun r => p.ringVertexList r.2
  return vss.any fun vs => 3 ≤ vs.length

/-- The first loop of `validate`, src/plc.rs:620-629 -/
def degenerate (p : Plc P Q V E F) : Option (List Nat) :=
  p.faces.iter.foldlM (fun l x => do
    if ← p.fullFace x.2 then return l else return l ++ [x.1]) []

/-- The body of the second loop of `validate`, src/plc.rs:641-657 -/
def fails (t : Tests P Q D) (p : Plc P Q V E F) (face : Face Q F) : Option (List (Nat × D)) := do
  let rs ← p.faceRings face
  let vss ← rs.mapM fun r => p.ringVertexList r.2
  let points := vss.flatten.map fun x => (x.1, x.2.position)
  return points.filterMap fun x => (t.twist face.plane x.2).map fun dist => (x.1, dist)

/-- The second loop of `validate`, src/plc.rs:639-661 -/
def twisted (t : Tests P Q D) (p : Plc P Q V E F) : Option (List (Nat × List (Nat × D))) :=
  p.faces.iter.foldlM (fun l x => do
    let fails ← p.fails t x.2
    if fails.isEmpty then return l else return l ++ [(x.1, fails)]) []

/-- `self.plc[v].position()` -/
def position (p : Plc P Q V E F) (v : Nat) : Option P := (p.vertices.get v).map (·.position)

/-- `vertex_bound`, src/plc/intersect.rs:213-224 -/
def vertexBound (b : Boxes P B) (p : Plc P Q V E F) (v : Nat) : Option (Element × B) := do
  return (.vertex v, b.box [← p.position v])

/-- `edge_bound`, src/plc/intersect.rs:226-237 -/
def edgeBound (b : Boxes P B) (p : Plc P Q V E F) (e : Nat) : Option (Element × B) := do
  let vs := (← p.edges.get e).vertices
  return (.edge e, b.box [← p.position vs.1, ← p.position vs.2])

/-- `face_bound`, src/plc/intersect.rs:239-252 -/
def faceBound (b : Boxes P B) (p : Plc P Q V E F) (f : Nat) : Option (Element × B) := do
  let vss ← p.faceVertexLists (← p.faces.get f)
  return (.face f, b.box (vss.flatten.map (·.2.position)))

/-- The leaves of the bounding volume tree, src/plc.rs:672-684 -/
def leaves (b : Boxes P B) (p : Plc P Q V E F) : Option (List (Element × B)) := do
  let vs ← p.vertices.keys.mapM (p.vertexBound b)
  let es ← p.edges.keys.mapM (p.edgeBound b)
  let fs ← p.faces.keys.mapM (p.faceBound b)
  return vs ++ es ++ fs

/-- `[VertexId; 2]` compared by `<`: lexicographic -/
def pairLt (x y : Nat × Nat) : Bool := x.1 < y.1 || x.1 = y.1 && x.2 < y.2

/-- `IntersectionTest::visit` for two leaves, src/plc/intersect.rs:74-211: what is pushed to
`intersections`, if anything.  (For other nodes of the tree nothing is pushed.) -/
def visit (t : Tests P Q D) (b : Boxes P B) (p : Plc P Q V E F) (left right : Element × B) :
    Option (Option (Element × Element × D)) :=
  if !b.meet left.2 right.2 then some none else
  match left.1, right.1 with
  | .vertex v0, .vertex v1 =>
    if v0 < v1 then do
      return (t.vv (← p.position v0) (← p.position v1)).map fun dist => (.vertex v0, .vertex v1, dist)
    else some none
  | .vertex v, .edge e => do
    let ev := (← p.edges.get e).vertices
    if !(v = ev.1 || v = ev.2) then
      return (t.ve (← p.position v) (← p.position ev.1, ← p.position ev.2)).map fun dist =>
        (.vertex v, .edge e, dist)
    else return none
  | .edge e0, .edge e1 => do
    let ev0 := (← p.edges.get e0).vertices
    let ev1 := (← p.edges.get e1).vertices
    if pairLt ev0 ev1 && !(ev0.1 = ev1.1 || ev0.2 = ev1.1) && !(ev0.1 = ev1.2 || ev0.2 = ev1.2) then
      return (t.ee (← p.position ev0.1, ← p.position ev0.2)
        (← p.position ev1.1, ← p.position ev1.2)).map fun dist => (.edge e0, .edge e1, dist)
    else return none
  | .vertex v, .face f => do
    let face ← p.faces.get f
    let fv ← p.faceVertexLists face
    if !fv.flatten.any fun x => v = x.1 then
      let p0 ← p.position v
      match t.vf face.plane p0 with
      | none => return none
      | some dist =>
        if t.inFace face.plane p0 (fv.map fun r => r.map (·.2.position)) then
          return some (.vertex v, .face f, dist)
        else return none
    else return none
  | .edge e, .face f => do
    let face ← p.faces.get f
    let fv ← p.faceVertexLists face
    let ev := (← p.edges.get e).vertices
    if !fv.flatten.any fun x => ev.1 = x.1 || ev.2 = x.1 then
      match t.ef face.plane (← p.position ev.1, ← p.position ev.2) with
      | none => return none
      | some point =>
        if t.inFace face.plane point (fv.map fun r => r.map (·.2.position)) then
          return some (.edge e, .face f, t.zero)
        else return none
    else return none
  | .face _, .edge _ => some none
  | .face _, .vertex _ => some none
  | .edge _, .vertex _ => some none
  | .face _, .face _ => some none

/-- `bvt.visit_bvtt(&bvt, &mut visitor)`, src/plc.rs:686-692: all that is pushed. -/
def intersections (t : Tests P Q D) (b : Boxes P B) (p : Plc P Q V E F)
    (pairs : List ((Element × B) × (Element × B))) : Option (List (Element × Element × D)) :=
  pairs.foldlM (fun l x => do
    match ← p.visit t b x.1 x.2 with
    | none => return l
    | some i => return l ++ [i]) []

/-- `Plc::validate`, src/plc.rs:619-695 -/
def validate (t : Tests P Q D) (b : Boxes P B)
    (bvt : List (Element × B) → List ((Element × B) × (Element × B))) (p : Plc P Q V E F) :
    Option (Except (Reason D) Unit) := do
  let deg ← p.degenerate
  if !deg.isEmpty then return .error (.degenerateFace deg)
  let tw ← p.twisted t
  if !tw.isEmpty then return .error (.twistedFace tw)
  let leaves ← p.leaves b
  let is ← p.intersections t b (bvt leaves)
  if !is.isEmpty then return .error (.intersects is)
  return .ok ()

end Tet.Plc
