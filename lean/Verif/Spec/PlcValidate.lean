import Verif.Model.PlcValidate
import Verif.Spec.Plc

/-!
# What validation should report
-/

namespace Tet.PlcSpec
open Plc
variable {P Q V E F D B : Type}

/-- The vertices of an element. -/
def Contents.corners (c : Contents P V E F) : Element → List Nat
  | .vertex v => [v]
  | .edge e => (c.edges[e]?.map fun x => [x.1.1, x.1.2]).getD []
  | .face f => (c.faces[f]?.map fun x => x.1.flatten).getD []

/-- All elements. -/
def Contents.elements (c : Contents P V E F) : List Element :=
  (List.range c.vertices.length).map .vertex ++ (List.range c.edges.length).map .edge ++
    (List.range c.faces.length).map .face

/-- The positions of the vertices of an element. -/
def Contents.points (c : Contents P V E F) (x : Element) : List P := (c.corners x).filterMap c.pos

/-- The faces without a ring of at least three vertices. -/
def Contents.degenerate (c : Contents P V E F) : List Nat :=
  (List.range c.faces.length).filter fun f => (c.faces[f]?).any fun x => x.1.all fun r => r.length < 3

/-- The vertices of a face that are too far from its plane, with the distance. -/
def Contents.offPlane (g : Geom P Q) (t : Tests P Q D) (c : Contents P V E F) (rings : List (List Nat)) :
    List (Nat × D) :=
  rings.flatten.filterMap fun v => (c.pos v).bind fun x =>
    (t.twist (c.plane g rings) x).map fun dist => (v, dist)

/-- The faces with such vertices. -/
def Contents.twisted (g : Geom P Q) (t : Tests P Q D) (c : Contents P V E F) :
    List (Nat × List (Nat × D)) :=
  ((List.range c.faces.length).filterMap fun f => (c.faces[f]?).map fun x =>
    (f, c.offPlane g t x.1)).filter fun x => x.2 ≠ []

/-- The distance of two elements, if they are too close to each other according to the geometric
tests.  There is no test for two faces, and an edge meets a face in the distance zero. -/
def Contents.near (g : Geom P Q) (t : Tests P Q D) (c : Contents P V E F) : Element → Element → Option D
  | .vertex v, .vertex w => do t.vv (← c.pos v) (← c.pos w)
  | .vertex v, .edge e => do
    let ((a, b), _) ← c.edges[e]?
    t.ve (← c.pos v) (← c.pos a, ← c.pos b)
  | .edge e, .edge e' => do
    let ((a, b), _) ← c.edges[e]?
    let ((a', b'), _) ← c.edges[e']?
    t.ee (← c.pos a, ← c.pos b) (← c.pos a', ← c.pos b')
  | .vertex v, .face f => do
    let (rings, _) ← c.faces[f]?
    let dist ← t.vf (c.plane g rings) (← c.pos v)
    guard (t.inFace (c.plane g rings) (← c.pos v) (rings.map fun r => r.filterMap c.pos))
    return dist
  | .edge e, .face f => do
    let (rings, _) ← c.faces[f]?
    let ((a, b), _) ← c.edges[e]?
    let point ← t.ef (c.plane g rings) (← c.pos a, ← c.pos b)
    guard (t.inFace (c.plane g rings) point (rings.map fun r => r.filterMap c.pos))
    return t.zero
  | _, _ => none

/-- Of two elements, the one to be named first: a vertex before an edge before a face, otherwise the
smaller vertex, and the edge with the smaller end points. -/
def Contents.before (c : Contents P V E F) : Element → Element → Bool
  | .vertex v, .vertex w => v < w
  | .vertex _, _ => true
  | .edge _, .vertex _ => false
  | .edge e, .edge e' => c.corners (.edge e) < c.corners (.edge e')
  | .edge _, .face _ => true
  | .face _, _ => false

/-- The bounding box of an element. -/
def Contents.box (b : Boxes P B) (c : Contents P V E F) (x : Element) : B := b.box (c.points x)

/-- What to report about two elements. -/
def Contents.report (g : Geom P Q) (t : Tests P Q D) (b : Boxes P B) (c : Contents P V E F)
    (x y : Element) : Option (Element × Element × D) :=
  if c.before x y ∧ (∀ v ∈ c.corners x, v ∉ c.corners y) ∧ b.meet (c.box b x) (c.box b y) then
    (c.near g t x y).map fun dist => (x, y, dist)
  else none

/-- What the bounding volume tree should do: show only pairs of leaves, each at most once, and all
those whose boxes intersect. -/
structure Broad (b : Boxes P B) (bvt : List (Element × B) → List ((Element × B) × (Element × B))) :
    Prop where
  leaf : ∀ l x, x ∈ bvt l → x.1 ∈ l ∧ x.2 ∈ l
  nodup : ∀ l, l.Nodup → (bvt l).Nodup
  all : ∀ l x y, x ∈ l → y ∈ l → b.meet x.2 y.2 → (x, y) ∈ bvt l

end Tet.PlcSpec
