import Verif.Spec.Tiling
import Verif.Spec.Cavity
import Verif.Spec.FlipIn
import Verif.Spec.Intersect
import Verif.Spec.Geo

/-!
# Specification of putting a point into an edge or triangle of the mesh
-/

namespace Tet.Spec
variable {P K V T : Type} [Field K] [LinearOrder K]

/-- The point is strictly between the vertices: a combination of their positions with positive weights of sum one.
The ghost vertex stands for the directions away from the center: its position is the center and its weight is counted
with the sign reversed. -/
def Amid (m : Mesh (Pt K) V T) (vs : List VId) (p : Pt K) : Prop :=
  ∃ (wt : VId → K) (q : VId → Pt K), (∀ v ∈ vs, 0 < wt v ∧ m.idxOri v = some (q v)) ∧
    (vs.map fun v => Mesh.ghostSign [v] * wt v).sum = 1 ∧
    p.x = (vs.map fun v => Mesh.ghostSign [v] * wt v * (q v).x).sum ∧
    p.y = (vs.map fun v => Mesh.ghostSign [v] * wt v * (q v).y).sum ∧
    p.z = (vs.map fun v => Mesh.ghostSign [v] * wt v * (q v).z).sum

/-- What must not be split: a locked edge or an edge of a locked triangle; a locked triangle. -/
def Unsplittable (m : Mesh P V T) : EdgeOrTri → Prop
  | .edge e => LockedEdge m e.1 e.2 ∨ ∃ c, LockedTri m (e.1, e.2, c)
  | .tri t => LockedTri m t

/-- The search for an element starts at its first vertex, which must not be the ghost vertex; triangles are also found by
the index of triangles if it is maintained. -/
def Findable (m : Mesh P V T) : EdgeOrTri → Prop
  | .edge e => e.1 ≠ GHOST
  | .tri t => t.1 ≠ GHOST ∨ m.trackTriMap = true

/-- A mesh that fills space, without temporary marks. -/
structure Sound (m : Mesh (Pt K) V T) : Prop where
  consistent : Consistent m
  tiles : Tiles m
  tidy : Tidy m
  unmarked : Unmarked m

/-- What putting a vertex with the position `p` and the value `x` into the element `g` should do. -/
structure Split (m m' : Mesh (Pt K) V T) (g : EdgeOrTri) (s : VId) (p : Pt K) (x : V) : Prop where
  sound : Sound m'
  /-- the vertex is new -/
  fresh : m.vertices.get s = none
  new : At m' s p ∧ ∃ y, m'.vertices.get s = some y ∧ y.value = x
  /-- the other vertices stay -/
  others : ∀ v, v ≠ s → (m'.vertices.get v).map (fun y => (y.position, y.value)) = (m.vertices.get v).map fun y => (y.position, y.value)
  inMesh : ∀ v, InMesh m' v ↔ v = s ∨ InMesh m v
  center : m'.center = m.center
  /-- the vertex is in the element -/
  joined : ∀ v ∈ corners g, HasEdge m' v s
  gone : ¬ Present m' g
  /-- locks stay, except those of triangles whose edges are not locked -/
  edges : ∀ a b, LockedEdge m' a b ↔ LockedEdge m a b
  tris : ∀ t, LockedTri m' t → LockedTri m t
  kept : ∀ a b c, LockedTri m (a, b, c) → LockedEdge m a b → LockedEdge m b c → LockedEdge m c a → LockedTri m' (a, b, c)

/-- The ids suffice for another vertex, whatever has to be replaced. -/
def EnoughIds (m : Mesh P V T) : Prop :=
  ∃ nV nE nT, m.numVertices = some nV ∧ m.numEdges = some nE ∧ m.numTets = some nT ∧ nV < idMax ∧ 5 * nT ≤ idMax ∧ nE + 12 * nT ≤ idMax

/-- The point of the line from `p0` to `p1` at `t`. -/
def along (p0 p1 : Pt K) (t : K) : Pt K := ⟨p0.x + t * (p1.x - p0.x), p0.y + t * (p1.y - p0.y), p0.z + t * (p1.z - p0.z)⟩

/-- A point where the edge from `v0` to `v1` meets the element: inside of both. -/
def MeetsIn (m : Mesh (Pt K) V T) (p0 p1 : Pt K) (g : EdgeOrTri) (p : Pt K) : Prop :=
  Amid m (corners g) p ∧ ∃ t, 0 < t ∧ t < 1 ∧ p = along p0 p1 t

/-- What `edge_intersections` gives: the elements that `edge_intersections_raw` gives, and the points. -/
def PointsFound (m : Mesh (Pt K) V T) (steps : Nat) (v0 v1 : VId) (p0 p1 : Pt K) (r : Option (List (EdgeOrTri × Pt K))) : Prop :=
  EdgeInters m steps v0 v1 (r.map (·.map (·.1))) ∧ ∀ l, r = some l → ∀ x ∈ l, MeetsIn m p0 p1 x.1 x.2

/-- What `edge_mid_intersection` gives: one of the intersections. -/
def MidFound (m : Mesh (Pt K) V T) (steps : Nat) (v0 v1 : VId) (p0 p1 : Pt K) : Option (Option (EdgeOrTri × Pt K)) → Prop
  | none => EdgeInters m steps v0 v1 none
  | some none => EdgeInters m steps v0 v1 (some [])
  | some (some (g, p)) => (∃ l, EdgeInters m steps v0 v1 (some l) ∧ g ∈ l) ∧ MeetsIn m p0 p1 g p

/-- The pairs of consecutive elements. -/
def pairs {α : Type} : List α → List (α × α)
  | a :: b :: l => (a, b) :: pairs (b :: l)
  | _ => []

/-- What recovering the edge from `v0` to `v1` with Steiner points should do: the vertices `l` are new, they are on the segment
in this order, and the pieces of the segment are locked edges of the mesh; what is locked stays locked, except for triangles whose
edges are not locked. -/
structure Chained (m m' : Mesh (Pt K) V T) (v0 v1 : VId) (p0 p1 : Pt K) (x : V) (l : List VId) : Prop where
  sound : Sound m'
  fresh : ∀ s ∈ l, m.vertices.get s = none
  nodup : l.Nodup
  on : ∃ ts : List K, List.Forall₂ (fun s t => At m' s (along p0 p1 t)) l ts ∧ (0 :: ts ++ [1]).IsChain (· < ·)
  value : ∀ s ∈ l, ∃ y, m'.vertices.get s = some y ∧ y.value = x
  others : ∀ v, v ∉ l → (m'.vertices.get v).map (fun y => (y.position, y.value)) = (m.vertices.get v).map fun y => (y.position, y.value)
  inMesh : ∀ v, InMesh m' v ↔ v ∈ l ∨ InMesh m v
  center : m'.center = m.center
  edges : ∀ a b, LockedEdge m' a b ↔ LockedEdge m a b ∨ (a, b) ∈ pairs (v0 :: l ++ [v1]) ∨ (b, a) ∈ pairs (v0 :: l ++ [v1])
  tris : ∀ t, LockedTri m' t → LockedTri m t
  kept : ∀ a b c, LockedTri m (a, b, c) → LockedEdge m a b → LockedEdge m b c → LockedEdge m c a → LockedTri m' (a, b, c)

/-- Why recovering an edge with Steiner points may panic or not end. -/
inductive SteinerFails (steps : Nat) : Nat → VId → VId → Mesh (Pt K) V T → Prop
  /-- more nested calls than allowed -/
  | deep {v0 v1 m} : SteinerFails steps 0 v0 v1 m
  /-- the search for intersections panics or is too long -/
  | search {depth v0 v1 m} : EdgeInters m steps v0 v1 none → SteinerFails steps (depth + 1) v0 v1 m
  /-- an element in the way must not be split or cannot be found, or the ids are used up -/
  | blocked {depth v0 v1 m g} : CrossedBy m v0 v1 g → Unsplittable m g ∨ ¬ Findable m g ∨ ¬ EnoughIds m →
      SteinerFails steps (depth + 1) v0 v1 m
  /-- the search finds nothing, but there is no edge -/
  | lost {depth v0 v1 m} : EdgeInters m steps v0 v1 (some []) → ¬ HasEdge m v0 v1 → SteinerFails steps (depth + 1) v0 v1 m
  /-- one of the pieces cannot be recovered -/
  | left {depth v0 v1 m m1 g s p x} : CrossedBy m v0 v1 g → Split m m1 g s p x → SteinerFails steps depth v0 s m1 →
      SteinerFails steps (depth + 1) v0 v1 m
  | right {depth v0 v1 m m1 m2 g s p p0 x l} : CrossedBy m v0 v1 g → Split m m1 g s p x → Chained m1 m2 v0 s p0 p x l →
      SteinerFails steps depth s v1 m2 → SteinerFails steps (depth + 1) v0 v1 m

end Tet.Spec
