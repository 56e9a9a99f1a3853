import Verif.Model.Mesh
import Verif.Spec.Walker

/-!
# Vocabulary for flips

The tets of a mesh as oriented quadruples of vertices, its edges as pairs of vertices, and
what it means to replace tets or to keep locks.
-/

namespace Tet.Spec
variable {P V T : Type}

/-- Some walker shows the four vertices in this order. -/
def HasTet (m : Mesh P V T) (q : V4) : Prop := ∃ w, m.tet4 w = some q

/-- The same tet with the same orientation. -/
def SameTet (p q : V4) : Prop := EvenRearr (quad p) (quad q)

/-- The mesh `m'` has the tets of `m` except `old`, and `new`. -/
def Replaces (m m' : Mesh P V T) (old new : List V4) : Prop :=
  (∀ p ∈ old, HasTet m p) ∧
  ∀ q, HasTet m' q ↔ (HasTet m q ∧ ∀ p ∈ old, ¬ SameTet p q) ∨ ∃ p ∈ new, SameTet p q

/-- The mesh has an undirected edge with these end points. -/
def HasEdge (m : Mesh P V T) (a b : VId) : Prop :=
  ∃ e ue, m.edges.get e = some ue ∧ ue.vertices = (min a b, max a b)

/-- The oriented triangle belongs to a tet of the mesh. -/
def HasTri (m : Mesh P V T) (s : V3) : Prop := ∃ w, m.tri w = some s

/-- The oriented triangle belongs to a tet of the mesh and is locked there. -/
def LockedTri (m : Mesh P V T) (s : V3) : Prop :=
  ∃ w, m.tri w = some s ∧ m.triLocked w = some true

/-- The mesh has an edge with these end points and it is locked. -/
def LockedEdge (m : Mesh P V T) (a b : VId) : Prop :=
  ∃ e ue, m.edges.get e = some ue ∧ ue.vertices = (min a b, max a b) ∧ ue.locked = true

/-- Triangles and edges that are in both meshes are locked in both or in none; those which are
only in the second mesh are not locked. -/
structure LocksKept (m m' : Mesh P V T) : Prop where
  tri : ∀ s, HasTri m' s → (LockedTri m' s ↔ LockedTri m s)
  edge : ∀ a b, HasEdge m' a b → (LockedEdge m' a b ↔ LockedEdge m a b)

end Tet.Spec
