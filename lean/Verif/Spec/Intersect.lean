import Verif.Model.Intersect
import Verif.Spec.Recover

/-!
# Elements of the mesh that cross an edge or a triangle
-/

namespace Tet.Spec
variable {K V T : Type} [Field K] [LinearOrder K]

/-- The vertex has a position: it is stored, or the ghost vertex. -/
def Placed {P V T : Type} (m : Mesh P V T) (v : VId) : Prop := v = GHOST ∨ m.vertices.get v ≠ none

/-- The element is in the mesh, and the geometric test says that it crosses the edge from `v0` to `v1`.
(C37 and C38 say what the tests mean.) -/
def CrossedBy (m : Mesh (Pt K) V T) (v0 v1 : VId) : EdgeOrTri → Prop
  | .tri (a, b, c) => HasTri m (a, b, c) ∧ m.triIntersectsEdge a b c v0 v1 = some true
  | .edge (a, b) => HasEdge m a b ∧ m.edgeIntersectsEdge a b v0 v1 = some true

def corners : EdgeOrTri → List VId
  | .tri (a, b, c) => [a, b, c]
  | .edge (a, b) => [a, b]

/-- If the element is a triangle, the tet has it in this orientation. -/
def FaceOf (q : V4) : EdgeOrTri → Prop
  | .tri (a, b, c) => ∃ d, SameTet q (a, b, c, d)
  | .edge _ => True

/-- If the element is a triangle, the tet is on its other side. -/
def Beyond (q : V4) : EdgeOrTri → Prop
  | .tri (a, b, c) => ∃ d, SameTet q (b, a, c, d)
  | .edge _ => True

/-- A sequence of elements along the edge from `v0` to `v1`: each crosses the edge, the first one is opposite to `v0` in a
tet, and consecutive ones are different and belong to one tet, which is beyond the first one if that is a triangle. -/
structure Trail (m : Mesh (Pt K) V T) (v0 v1 : VId) (l : List EdgeOrTri) : Prop where
  crossed : ∀ g ∈ l, CrossedBy m v0 v1 g
  start : ∀ g, l.head? = some g → ∃ a b c, HasTet m (v0, a, b, c) ∧ (∀ v ∈ corners g, v ∈ [a, b, c]) ∧ FaceOf (v0, a, b, c) g
  next : l.IsChain fun g h => g.sorted ≠ h.sorted ∧ ∃ a b c d, HasTet m (a, b, c, d) ∧
    (∀ v ∈ corners g ++ corners h, v ∈ [a, b, c, d]) ∧ Beyond (a, b, c, d) g ∧ FaceOf (a, b, c, d) h

/-- Nothing that is opposite to `v0` crosses the edge, or a tet has both ends. -/
def EndsAtStart (m : Mesh (Pt K) V T) (v0 v1 : VId) : Prop :=
  (∃ a b c, HasTet m (v0, a, b, c) ∧ v1 ∈ [a, b, c]) ∨
  (StarConnected m v0 → ∀ a b c, HasTet m (v0, a, b, c) → ¬ CrossedBy m v0 v1 (.tri (c, b, a)) ∧
    ¬ CrossedBy m v0 v1 (.edge (b, a)))

/-- A tet on the other side of the element has `v1`, or nothing there crosses the edge, except for the element before
this one. -/
def EndsAt (m : Mesh (Pt K) V T) (v0 v1 : VId) (prev : Option EdgeOrTri) : EdgeOrTri → Prop
  | .tri (a, b, c) => ∃ d, HasTet m (b, a, c, d) ∧ (v1 ∈ [a, b, c, d] ∨
      ∀ x ∈ [a, b, c], ¬ CrossedBy m v0 v1 (.edge (x, d)) ∧ ∀ y ∈ [a, b, c], ¬ CrossedBy m v0 v1 (.tri (x, y, d)))
  | .edge (a, b) => (∃ c d, HasTet m (a, b, c, d) ∧ v1 ∈ [a, b, c, d]) ∨ ∀ c d, HasTet m (a, b, c, d) →
      ∀ g ∈ [EdgeOrTri.tri (c, d, a), .tri (d, c, b), .edge (a, d), .edge (b, d), .edge (c, d)],
        CrossedBy m v0 v1 g → ∃ p, prev = some p ∧ g.sorted = p.sorted

/-- What `edge_intersections_raw` gives: a trail that cannot be continued.  It panics only if a vertex does not exist;
`none` may also mean that there is a trail with more than `steps` elements. -/
def EdgeInters (m : Mesh (Pt K) V T) (steps : Nat) (v0 v1 : VId) : Option (List EdgeOrTri) → Prop
  | none => ¬ Solid m v0 ∨ ¬ Placed m v1 ∨ ∃ l, Trail m v0 v1 l ∧ l.length = steps + 1
  | some l => Trail m v0 v1 l ∧ (l = [] → EndsAtStart m v0 v1) ∧
      ∀ l' g, l = l' ++ [g] → EndsAt m v0 v1 l'.getLast? g

/-- The edge is in the mesh and the geometric test says that it crosses the triangle. -/
def CrossesTri (m : Mesh (Pt K) V T) (t : V3) (e : VId × VId) : Prop :=
  HasEdge m e.1 e.2 ∧ m.triIntersectsEdge t.1 t.2.1 t.2.2 e.1 e.2 = some true

/-- Two edges of a triangle of the mesh. -/
def Neighbours {P V T : Type} (m : Mesh P V T) (e f : VId × VId) : Prop :=
  ∃ x y z, HasTri m (x, y, z) ∧ (e = (x, y) ∨ e = (y, x)) ∧ (f = (y, z) ∨ f = (z, x))

/-- What `tri_intersections_raw` gives: different edges that cross the triangle, where the first one is opposite to the
first edge of the triangle in a tet, and every other one is in a triangle with an earlier one; and every edge that crosses
and is in a triangle with one of them is among them (in either order of its end points).  Without result if nothing
opposite to the first edge crosses. -/
def TriInters (m : Mesh (Pt K) V T) (t : V3) : Option (List (VId × VId)) → Prop
  | none => ¬ Solid m t.1 ∨ ¬ Placed m t.2.2 ∨ Gone m (.edge (t.1, t.2.1))
  | some l => (∀ e ∈ l, CrossesTri m t e) ∧ (l.map sorted2).Nodup ∧
      (∀ e l', l = e :: l' → ∃ c d, HasTet m (t.1, t.2.1, c, d) ∧ e = (c, d)) ∧
      (∀ l1 e l2, l = l1 ++ e :: l2 → l1 ≠ [] → ∃ f ∈ l1, Neighbours m f e) ∧
      (∀ e ∈ l, ∀ f, Neighbours m e f → CrossesTri m t f → sorted2 f ∈ l.map sorted2) ∧
      (l = [] → ∀ c d, HasTet m (t.1, t.2.1, c, d) → ¬ CrossesTri m t (c, d))

end Tet.Spec
