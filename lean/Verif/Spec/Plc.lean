import Verif.Model.Plc
import Verif.Spec.Iter

/-!
# What a `Plc` should be

The specification of a `Plc` is three lists: the vertices with position and value, the edges with
end points and value, and the faces with rings and value, each in the order they were added; an id
is an index into its list.
-/

namespace Tet.PlcSpec
variable {P Q V E F : Type}

/-- The pairs of neighbours around a ring; an isolated vertex has none. -/
def cyc : List Nat → List (Nat × Nat)
  | [] => []
  | [_] => []
  | a :: b :: l => (a :: b :: l).zip (b :: l ++ [a])

/-- Add an edge that may be there already; then nothing changes. -/
def putNew (l : List ((Nat × Nat) × E)) (vs : Nat × Nat) (value : E) : List ((Nat × Nat) × E) :=
  if vs ∈ l.map Prod.fst then l else l ++ [(vs, value)]

/-- Add an edge that may be there already; then its value is replaced. -/
def put (l : List ((Nat × Nat) × E)) (vs : Nat × Nat) (value : E) : List ((Nat × Nat) × E) :=
  if vs ∈ l.map Prod.fst then l.map fun x => if x.1 = vs then (vs, value) else x
  else l ++ [(vs, value)]

/-- The contents of a `Plc`. -/
structure Contents (P V E F : Type) where
  vertices : List (P × V)
  edges : List ((Nat × Nat) × E)
  faces : List (List (List Nat) × F)

/-- The empty contents. -/
def Contents.empty : Contents P V E F := ⟨[], [], []⟩

/-- The position of a vertex. -/
def Contents.pos (c : Contents P V E F) (v : Nat) : Option P := (c.vertices[v]?).map Prod.fst

/-- The plane a face with these rings should have. -/
def Contents.plane (g : Plc.Geom P Q) (c : Contents P V E F) (rings : List (List Nat)) : Q :=
  g.plane (rings.flatten.filterMap c.pos) ((rings.flatMap cyc).filterMap fun vs =>
    (c.pos vs.1).bind fun x => (c.pos vs.2).map fun y => (x, y))

/-- All rings of all faces. -/
def Contents.rings (c : Contents P V E F) : List (List Nat) := c.faces.flatMap Prod.fst

/-- What a user can do to a `Plc`. -/
inductive Op (P V E F : Type)
  | vertex (position : P) (value : V)
  | edge (vs : Nat × Nat) (value : E)
  | edgeIfAbsent (vs : Nat × Nat) (value : E)
  | face (rings : List (List Nat)) (value : F)

/-- What it should do to the contents. -/
def Contents.apply (d : E) (c : Contents P V E F) : Op P V E F → Contents P V E F
  | .vertex position value => { c with vertices := c.vertices ++ [(position, value)] }
  | .edge vs value => { c with edges := put c.edges vs value }
  | .edgeIfAbsent vs value => { c with edges := putNew c.edges vs value }
  | .face rings value =>
    { c with
      edges := (rings.flatMap cyc).foldl (fun l vs => putNew l vs d) c.edges
      faces := c.faces ++ [(rings, value)] }

/-- The id it should return. -/
def Contents.result (c : Contents P V E F) : Op P V E F → Nat
  | .vertex _ _ => c.vertices.length
  | .edge vs _ => (c.edges.map Prod.fst).idxOf vs
  | .edgeIfAbsent vs _ => (c.edges.map Prod.fst).idxOf vs
  | .face _ _ => c.faces.length

/-- When it is allowed. -/
def Contents.allows (c : Contents P V E F) : Op P V E F → Prop
  | .vertex _ _ => True
  | .edge vs _ => vs.1 < c.vertices.length ∧ vs.2 < c.vertices.length
  | .edgeIfAbsent vs _ => vs.1 < c.vertices.length ∧ vs.2 < c.vertices.length
  | .face rings _ => rings ≠ [] ∧ ∀ vs ∈ rings, vs ≠ [] ∧ ∀ v ∈ vs, v < c.vertices.length

/-- There are enough ids: 2^32 - 1 of each kind. -/
def Contents.room (c : Contents P V E F) : Op P V E F → Prop
  | .vertex _ _ => c.vertices.length < idMax
  | .edge vs _ => c.edges.length < idMax ∨ vs ∈ c.edges.map Prod.fst
  | .edgeIfAbsent vs _ => c.edges.length < idMax ∨ vs ∈ c.edges.map Prod.fst
  | .face rings _ => c.faces.length < idMax ∧ c.rings.length + rings.length ≤ idMax ∧
      c.edges.length + rings.flatten.length ≤ idMax ∧
      c.rings.flatten.length + rings.flatten.length ≤ idMax

/-- Calling the function. -/
def call (g : Plc.Geom P Q) (p : Plc P Q V E F) : Op P V E F → Option (Plc P Q V E F × Nat)
  | .vertex position value => p.addVertex position value
  | .edge vs value => p.addEdge vs value
  | .edgeIfAbsent vs value => p.addEdgeIfAbsent vs value
  | .face rings value => Plc.addFace g p rings value

/-- A sequence of calls leads from `p` to `p'`. -/
inductive Calls (g : Plc.Geom P Q) (p : Plc P Q V E F) :
    List (Op P V E F) → Plc P Q V E F → Prop
  | nil : Calls g p [] p
  | snoc {ops p' op p'' id} : Calls g p ops p' → call g p' op = some (p'', id) →
      Calls g p (ops ++ [op]) p''

/-- The contents after some calls. -/
def contents (d : E) (ops : List (Op P V E F)) : Contents P V E F := ops.foldl (Contents.apply d) .empty

/-- The operation mentions an edge. -/
def Op.adds : Op P V E F → Nat × Nat → Prop
  | .vertex _ _, _ => False
  | .edge vs _, ws => vs = ws
  | .edgeIfAbsent vs _, ws => vs = ws
  | .face rings _, ws => ∃ vs ∈ rings, ws ∈ cyc vs

/-- The ids of the elements with some property, in the order of insertion. -/
def ids {A : Type} (m : IdMap A) (prop : A → Bool) : List Nat :=
  (List.range m.map.nextPushIndex).filter fun i => (m.get i).any prop

/-- A circular doubly linked list: the elements of `l` follow each other in both directions, and
after the last comes the first.  `first` is the first element, or the invalid id. -/
def Circle (next prev : Nat → Option Nat) (first : Nat) (l : List Nat) : Prop :=
  first = l.head?.getD idMax ∧
  (l ≠ [] → List.IsChain (fun a b => next a = some b ∧ prev b = some a) (l ++ [first]))

end Tet.PlcSpec
