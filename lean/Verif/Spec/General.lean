import Verif.Spec.Intersect
import Verif.Spec.Recover
import Verif.Spec.Tiling

/-!
# Meshes in general position
-/

namespace Tet.Spec
variable {K V T : Type} [Field K] [LinearOrder K]

/-- No four different vertices are in a plane, and no three are in a plane with the center. -/
def NoFlat (m : Mesh (Pt K) V T) : Prop := ∀ a b c d, [a, b, c, d].Nodup → m.orient a b c d ≠ some 0

/-- The edge from `v0` to `v1` meets the plane of the triangle after this fraction of its length. -/
def MeetsAt (m : Mesh (Pt K) V T) (v0 v1 : VId) (t : V3) (s : K) : Prop :=
  ∃ x y, m.orient t.1 t.2.1 t.2.2 v0 = some x ∧ m.orient t.1 t.2.1 t.2.2 v1 = some y ∧ x ≠ y ∧ (1 - s) * x + s * y = 0

/-- All that is in the way of the edge from `v0` to `v1`: triangles, each of them once, in the order in which the edge
meets them. -/
structure InTheWay (m : Mesh (Pt K) V T) (v0 v1 : VId) (l : List V3) : Prop where
  crossed : ∀ t ∈ l, CrossedBy m v0 v1 (.tri t)
  all : ∀ t, CrossedBy m v0 v1 (.tri t) → ∃ t' ∈ l, SameThree t t'
  noEdge : ∀ e, ¬ CrossedBy m v0 v1 (.edge e)
  once : l.Pairwise fun t t' => ¬ SameThree t t'
  order : l.Pairwise fun t t' => ∃ s s', MeetsAt m v0 v1 t s ∧ MeetsAt m v0 v1 t' s' ∧ s < s'

/-- All edges of the mesh that go through the triangle, each of them once. -/
structure ThroughTri (m : Mesh (Pt K) V T) (t : V3) (l : List (VId × VId)) : Prop where
  crossing : ∀ e ∈ l, CrossesTri m t e
  all : ∀ e, CrossesTri m t e → e ∈ l ∨ e.swap ∈ l
  once : l.Pairwise fun e f => f ≠ e ∧ f ≠ e.swap

/-- The vertices of a triangle to recover. -/
structure Corners (m : Mesh (Pt K) V T) (t : V3) : Prop where
  solid : Solid m t.1 ∧ Solid m t.2.1 ∧ Solid m t.2.2
  ne : t.1 ≠ t.2.1 ∧ t.2.1 ≠ t.2.2 ∧ t.2.2 ≠ t.1

/-- Something is in the way of an edge of the triangle, or of the triangle. -/
def Obstructed (m : Mesh (Pt K) V T) (t : V3) : Prop :=
  (∃ e ∈ triEdges t, ∃ s, CrossedBy m e.1 e.2 (.tri s)) ∨ ∃ e, CrossesTri m t e

/-- The edges of the triangle have been recovered, and an edge to the ghost vertex goes through it: the triangle is
outside of the solid tets. -/
def SticksOut (m : Mesh (Pt K) V T) (t : V3) : Prop :=
  ∃ m1 v, RecoverRun Mesh.positive m m1 ∧ (∀ e ∈ triEdges t, LockedEdge m1 e.1 e.2) ∧ CrossesTri m1 t (GHOST, v)

/-- What `recover_and_lock_tri` gives in general position. -/
def TriResult (m : Mesh (Pt K) V T) (t : V3) : Option (Mesh (Pt K) V T × Bool) → Prop
  | none => SticksOut m t
  | some (m', b) => Consistent m' ∧ SameVertices m m' ∧ Tiles m' ∧ (b = true ↔ HasTri m' t) ∧
      (b = true → LockedTri m' t ∧ LockedTri m' (t.2.1, t.1, t.2.2) ∧ ∀ e ∈ triEdges t, LockedEdge m' e.1 e.2) ∧
      (b = false → Obstructed m' t)

/-- What `recover_and_lock_boundary` gives in general position, from the mesh with its map of triangles. -/
def TrisResult (m : Mesh (Pt K) V T) (tris : List V3) : Option (Mesh (Pt K) V T × List V3) → Prop
  | none => ∃ m1, ∃ t ∈ tris, RecoverRun Mesh.positive m m1 ∧ SticksOut m1 t
  | some (m', missing) => Consistent m' ∧ SameVertices m m' ∧ Tiles m' ∧
      (∀ t ∈ tris, t ∈ missing ∨ LockedTri m' t ∧ LockedTri m' (t.2.1, t.1, t.2.2)) ∧
      ∀ t ∈ missing, t ∈ tris ∧ ∃ m1, RecoverRun Mesh.positive m m1 ∧ RecoverRun Mesh.positive m1 m' ∧ ¬ HasTri m1 t ∧ Obstructed m1 t

end Tet.Spec
