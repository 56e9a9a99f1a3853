import Verif.Model.Recover
import Verif.Spec.Progress
import Verif.Spec.Steps
import Verif.Spec.Iter

/-!
# Recovering edges and triangles
-/

namespace Tet.Spec
variable {P V T : Type}

/-- Locking elements: the mesh has the same vertices and tets, and everything locked stays locked. -/
structure Locks (m m' : Mesh P V T) : Prop where
  consistent : Consistent m'
  vertices : SameVertices m m'
  tets : ∀ q, HasTet m' q ↔ HasTet m q
  tri : ∀ s, LockedTri m s → LockedTri m' s
  edge : ∀ a b, LockedEdge m a b → LockedEdge m' a b

/-- Any number of flips of unlocked elements to positively oriented tets, and of locks. -/
inductive RecoverRun (pos : Mesh P V T → V4 → Bool) : Mesh P V T → Mesh P V T → Prop
  | refl (m) : RecoverRun pos m m
  | flip {m m1 m2 old new} : Flips m m1 old new → (∀ q ∈ new, pos m q = true) → RecoverRun pos m1 m2 → RecoverRun pos m m2
  | lock {m m1 m2} : Locks m m1 → RecoverRun pos m1 m2 → RecoverRun pos m m2

/-- A flip of an unlocked element to positively oriented tets would have to add an edge or a triangle that exists, or
there are no ids left. -/
def Stuck (pos : Mesh P V T → V4 → Bool) (m : Mesh P V T) : Prop :=
  (∃ old new, Clashes m old new ∧ ∀ q ∈ new, pos m q = true) ∨ ¬ Room m

/-- What is expected of the mesh: it is consistent, has its map of triangles and no tets of the wrong orientation, and
it does not get stuck. -/
structure RecoverReady (pos : Mesh P V T → V4 → Bool) (m : Mesh P V T) : Prop where
  consistent : Consistent m
  tracked : m.trackTriMap = true
  orient : GoodOrient pos m
  oriented : Oriented pos m
  never : ∀ m1, RecoverRun pos m m1 → ¬ Stuck pos m1

/-- The three vertices in any order. -/
def SameThree (s t : V3) : Prop := [s.1, s.2.1, s.2.2].Perm [t.1, t.2.1, t.2.2]

/-- Everything locked is still there and locked, and only these edges and triangles have been locked. -/
structure NewLocks (m m' : Mesh P V T) (edges : List (VId × VId)) (tris : List V3) : Prop where
  triKept : ∀ s, LockedTri m s → LockedTri m' s
  edgeKept : ∀ a b, LockedEdge m a b → LockedEdge m' a b
  tri : ∀ s, LockedTri m' s → LockedTri m s ∨ ∃ t ∈ tris, SameThree s t
  edge : ∀ a b, LockedEdge m' a b → LockedEdge m a b ∨ (a, b) ∈ edges ∨ (b, a) ∈ edges

/-- The mesh after recovering: nothing but flips of unlocked elements and locks. -/
structure Recovered (pos : Mesh P V T → V4 → Bool) (m m' : Mesh P V T) (edges : List (VId × VId)) (tris : List V3) :
    Prop where
  run : RecoverRun pos m m'
  ready : RecoverReady pos m'
  vertices : SameVertices m m'
  locks : NewLocks m m' edges tris

/-- A solid vertex of the mesh. -/
def Solid (m : Mesh P V T) (v : VId) : Prop := InMesh m v ∧ v ≠ GHOST

/-- The result for all large enough bounds of the loops. -/
def Settles {α : Type} (f : Nat → α) (r : α) : Prop := ∃ N, ∀ fuel ≥ N, f fuel = r

/-- The searches for intersections do not depend on the bounds for their loops, as soon as these are large enough. -/
structure GoodSearch (tests : RecoverTests P V T) : Prop where
  edge : ∀ m e, RecoverReady tests.pos m → ∃ r, Settles (tests.edgeInters · m e) r
  tri : ∀ m t, RecoverReady tests.pos m → ∃ r, Settles (tests.triInters · m t) r

/-- An element that the search of `recover_and_lock_edge` lists in `m1` is still in `m'`. -/
def EdgeBlocked (tests : RecoverTests P V T) (m1 m' : Mesh P V T) (edge : VId × VId) : Prop :=
  ∃ l g, Settles (tests.edgeInters · m1 edge) (some l) ∧ g ∈ l ∧ Present m' g

/-- The element is not in the mesh.  (Edges are looked up in the tets at their first vertex, if these are connected.) -/
def Gone (m : Mesh P V T) : EdgeOrTri → Prop
  | .edge e => StarConnected m e.1 → ¬ HasEdge m e.1 e.2
  | .tri t => ¬ HasTri m t

/-- On the way from `m` to `m'` there is a mesh without the element. -/
def Cleared (tests : ProgressTests P V T) (m m' : Mesh P V T) (g : EdgeOrTri) : Prop :=
  ∃ m1, ProgressRun tests m m1 ∧ ProgressRun tests m1 m' ∧ Gone m1 g

/-- When `recover_and_lock_edge` panics: the search panics, it lists an edge that starts at no solid vertex of the mesh,
or everything it lists could be removed and the edge is still missing. -/
def EdgePanics (tests : RecoverTests P V T) (m : Mesh P V T) (edge : VId × VId) : Prop :=
  Settles (tests.edgeInters · m edge) none ∨
  (∃ l e, Settles (tests.edgeInters · m edge) (some l) ∧ .edge e ∈ l ∧ ¬ Solid m e.1) ∨
  ∃ l m1, Settles (tests.edgeInters · m edge) (some l) ∧ (∀ g ∈ l, Cleared (tests.forEdge edge) m m1 g) ∧
    ProgressRun (tests.forEdge edge) m m1 ∧ (¬ Solid m edge.1 ∨ Gone m1 (.edge edge))

/-- What `recover_and_lock_edge` gives.  If it succeeds, flips that add nothing that crosses the edge have removed
everything in its way, and then the edge has been locked; if not, something is in the way still. -/
def EdgeOutcome (tests : RecoverTests P V T) (m : Mesh P V T) (edge : VId × VId) : Option (Mesh P V T × Bool) → Prop
  | none => EdgePanics tests m edge
  | some (m', true) => ∃ l m1, Settles (tests.edgeInters · m edge) (some l) ∧
      (∀ g ∈ l, Cleared (tests.forEdge edge) m m1 g) ∧ ProgressRun (tests.forEdge edge) m m1 ∧ Locks m1 m' ∧
      Recovered tests.pos m m' [edge] [] ∧ LockedEdge m' edge.1 edge.2
  | some (m', false) => ProgressRun (tests.forEdge edge) m m' ∧ SameLocks m m' ∧ Recovered tests.pos m m' [] [] ∧
      EdgeBlocked tests m m' edge

/-- The three edges of a triangle. -/
def triEdges (t : V3) : List (VId × VId) := [(t.1, t.2.1), (t.2.1, t.2.2), (t.2.2, t.1)]

/-- An edge that the search of `recover_and_lock_tri` lists in `m1` is still in `m'`. -/
def TriBlocked (tests : RecoverTests P V T) (m1 m' : Mesh P V T) (t : V3) : Prop :=
  ∃ l e, Settles (tests.triInters · m1 t) (some l) ∧ e ∈ l ∧ HasEdge m' e.1 e.2

/-- When the second part of `recover_and_lock_tri` panics. -/
def TriPanics (tests : RecoverTests P V T) (m : Mesh P V T) (t : V3) : Prop :=
  Settles (tests.triInters · m t) none ∨
  (∃ l e, Settles (tests.triInters · m t) (some l) ∧ e ∈ l ∧ ¬ Solid m e.1) ∨
  ∃ l m1, Settles (tests.triInters · m t) (some l) ∧ (∀ e ∈ l, Cleared (tests.forTri t) m m1 (.edge e)) ∧
    ProgressRun (tests.forTri t) m m1 ∧ ¬ HasTri m1 t

/-- What `recover_and_lock_tri` gives.  If it succeeds, the triangle is locked on both sides, and so are its edges; if not,
something is in the way of one of its edges, or of the triangle once its edges are locked. -/
def TriOutcome (tests : RecoverTests P V T) (m : Mesh P V T) (t : V3) : Option (Mesh P V T × Bool) → Prop
  | none => ∃ m1, Recovered tests.pos m m1 (triEdges t) [] ∧ ((∃ e ∈ triEdges t, EdgePanics tests m1 e) ∨
      (∀ e ∈ triEdges t, LockedEdge m1 e.1 e.2) ∧ TriPanics tests m1 t)
  | some (m', true) => Recovered tests.pos m m' (triEdges t) [t] ∧ LockedTri m' t ∧ LockedTri m' (t.2.1, t.1, t.2.2) ∧
      ∀ e ∈ triEdges t, LockedEdge m' e.1 e.2
  | some (m', false) => Recovered tests.pos m m' (triEdges t) [] ∧ ∃ m1, Recovered tests.pos m m1 (triEdges t) [] ∧
      ((∃ e ∈ triEdges t, EdgeBlocked tests m1 m' e) ∨ (∀ e ∈ triEdges t, LockedEdge m1 e.1 e.2) ∧ TriBlocked tests m1 m' t)

/-- What `recover_and_lock_edges` gives for the edges that are left: every one has been locked, or is reported as missing
because something was in its way. -/
def EdgesOutcome (tests : RecoverTests P V T) (m : Mesh P V T) (edges : List (VId × VId)) :
    Option (Mesh P V T × List (VId × VId)) → Prop
  | none => ∃ m1, Recovered tests.pos m m1 edges [] ∧ ∃ e ∈ edges, EdgePanics tests m1 e
  | some (m', missing) => Recovered tests.pos m m' edges [] ∧ (∀ e ∈ missing, e ∈ edges ∧
      ∃ m1 m2, Recovered tests.pos m m1 edges [] ∧ Recovered tests.pos m1 m2 [] [] ∧ Recovered tests.pos m2 m' edges [] ∧
        EdgeBlocked tests m1 m2 e) ∧ ∀ e ∈ edges, e ∈ missing ∨ LockedEdge m' e.1 e.2

/-- What `recover_and_lock_boundary` gives: every triangle has been locked on both sides, or is reported as missing
because it could not be recovered at some time. -/
def TrisOutcome (tests : RecoverTests P V T) (m : Mesh P V T) (tris : List V3) : Option (Mesh P V T × List V3) → Prop
  | none => ∃ m1, Recovered tests.pos m m1 (tris.flatMap triEdges) tris ∧ ∃ t ∈ tris, TriOutcome tests m1 t none
  | some (m', missing) => Recovered tests.pos m m' (tris.flatMap triEdges) tris ∧
      (∀ t ∈ missing, t ∈ tris ∧ ∃ m1 m2, Recovered tests.pos m m1 (tris.flatMap triEdges) tris ∧
        TriOutcome tests m1 t (some (m2, false)) ∧ Recovered tests.pos m2 m' (tris.flatMap triEdges) tris) ∧
      ∀ t ∈ tris, t ∈ missing ∨ LockedTri m' t ∧ LockedTri m' (t.2.1, t.1, t.2.2)

end Tet.Spec
