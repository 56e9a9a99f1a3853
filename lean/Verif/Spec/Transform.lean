import Verif.Spec.Flips

/-!
# Specification of the cap and shell transforms

The side vertices are a path from `a` over the vertices `l` to `b`, or that path closed.
-/

namespace Tet.Spec
variable {P V T : Type}

/-- The pairs of neighbours on the path from `a` over `l` to `b`. -/
def pathEdges : VId → List VId → VId → List (VId × VId)
  | a, [], b => [(a, b)]
  | a, x :: l, b => (a, x) :: pathEdges x l b

/-- Triangulations of the polygon with corners `a`, `l`, `b`: the triangle at the side from `b` to `a` has its third corner
somewhere on the path, and the rest is two smaller polygons. -/
inductive Triangulated : VId → List VId → VId → List V3 → Prop
  | side (a b) : Triangulated a [] b []
  | split {a l₁ c l₂ b s t} : Triangulated a l₁ c s → Triangulated c l₂ b t →
      Triangulated a (l₁ ++ c :: l₂) b ((a, c, b) :: (s ++ t))

/-- The list of triangles is a triangulation of the polygon, in any order, and each triangle begins with any of its corners. -/
def Fills (a : VId) (l : List VId) (b : VId) (tris : List V3) : Prop :=
  ∃ s s', Triangulated a l b s ∧ s'.Perm s ∧ List.Forall₂ Rotation s' tris

/-- The tets between the path and the edge from `vt` to `vb`. -/
def fanTets (vt vb : VId) (es : List (VId × VId)) : List V4 := es.map fun e => (e.2, vt, e.1, vb)

/-- The tets over and under the triangles. -/
def coneTets (vt vb : VId) (tris : List V3) : List V4 :=
  tris.flatMap fun r => [(r.2.1, r.1, r.2.2, vt), (r.1, r.2.1, r.2.2, vb)]

/-- The sides of the triangles. -/
def triSides (tris : List V3) : List (VId × VId) :=
  tris.flatMap fun r => [(r.1, r.2.1), (r.2.1, r.2.2), (r.2.2, r.1)]

/-- The triangle from any corner, with either orientation. -/
def Either (r s : V3) : Prop := Rotation (r.2.1, r.1, r.2.2) s ∨ Rotation r s

/-- `m'` is `m` with the tets `old` replaced by `new`.  All other tets keep their ids, vertices and values; the vertices keep
what is stored with them, and the map of triangles is kept up.  Of the triangles of the region, exactly `tris` are locked, from both sides; of the edges, those from
`vt` to the vertices `off` are unlocked and the sides of `tris` are locked. -/
structure Transformed (m m' : Mesh P V T) (old new : List V4) (tris : List V3) (vt : VId) (off : List VId) : Prop where
  replaces : Replaces m m' old new
  kept : ∀ k t, m.tets.get k = some t → (∀ p ∈ old, ¬ SameTet p (t.tet 0)) →
    ∃ t', m'.tets.get k = some t' ∧ t'.vertices = t.vertices ∧ t'.value = t.value
  points : ∀ v, (m'.vertices.get v).map (fun x => (x.flags, x.position, x.value)) =
    (m.vertices.get v).map fun x => (x.flags, x.position, x.value)
  center : m'.center = m.center
  tracked : m'.trackTriMap = true
  triLocks : ∀ s, LockedTri m' s ↔ (LockedTri m s ∧ ∀ p ∈ old, ∃ v ∈ list3 s, v ∉ [p.1, p.2.1, p.2.2.1, p.2.2.2]) ∨ ∃ r ∈ tris, Either r s
  edgeLocks : ∀ a b, LockedEdge m' a b ↔ (LockedEdge m a b ∧ ∀ v ∈ off, (a, b) ≠ (vt, v) ∧ (a, b) ≠ (v, vt)) ∨
    (a, b) ∈ triSides tris ∨ (b, a) ∈ triSides tris

end Tet.Spec
