import Verif.Model.Mesh
import Verif.Spec.Walker
import Verif.Proofs.IdMap

/-!
# What it means for a mesh to be consistent

Stated with the accessors of the API only (`tri`, `to_adj`, ...).  It contains everything
`assert_integrity(false)` (src/tet.rs:3537-3686) checks, except that vertices which are not
yet attached to a tet are allowed, and three more conditions: every oriented triangle
belongs to one tet, the tets around an edge form one ring, and vertices in tets are
attached.
-/

namespace Tet.Spec
variable {P V T : Type}

/-- The walker is on an existing tet. -/
def Live (m : Mesh P V T) (w : Walker) : Prop := (m.tets.get w.tet).isSome

/-- The four stored adjacency entries of every tet are right: the entry of the `i`-th triangle
is a walker with that triangle reversed, and crossing the triangle from there comes back.
(`assert_integrity` and `Consistent` ask this of all twelve walkers of a tet.) -/
def Glued (m : Mesh P V T) : Prop :=
  ∀ k, Live m ⟨k, 0⟩ → ∀ i : Fin 12, i.val < 4 → ∃ w a b c, m.toAdjAe ⟨k, i⟩ = some w ∧
    m.tri ⟨k, i⟩ = some (a, b, c) ∧ m.tri w = some (b, a, c) ∧ m.toAdj w = some ⟨k, i⟩

/-- `b` is reached from `a` by turning around the current edge, in either sense. -/
inductive SameRing (m : Mesh P V T) : Walker → Walker → Prop
  | refl (a) : SameRing m a a
  | step {a b c} : SameRing m a b → m.toAdj b.twin = some c → SameRing m a c
  | back {a b c} : SameRing m a b → m.toAdj c.twin = some b → SameRing m a c

structure Consistent (m : Mesh P V T) : Prop where
  /-- the three id maps are in a state reachable by their operations (see C02) -/
  stored : m.vertices.WF ∧ m.edges.WF ∧ m.tets.WF
  /-- moving to the adjacent tet reverses the triangle, and moving again comes back -/
  adjacent : ∀ w, Live m w → ∃ w' a b c, m.toAdj w = some w' ∧ m.toAdj w' = some w ∧
    m.tri w = some (a, b, c) ∧ m.tri w' = some (b, a, c)
  /-- tets have four different vertices -/
  distinct : ∀ w a b c d, m.tet4 w = some (a, b, c, d) → [a, b, c, d].Nodup
  /-- an attached vertex refers to a walker that starts at it -/
  vertexRef : ∀ v x, m.vertices.get v = some x →
    x.tet.tet = idMax ∨ m.first x.tet = some v
  /-- the vertices of tets exist and are attached, or are the ghost vertex -/
  vertexLive : ∀ w v, m.first w = some v →
    v = GHOST ∨ ∃ x, m.vertices.get v = some x ∧ m.first x.tet = some v
  /-- edges of tets exist and have the right end points -/
  edgePtr : ∀ w a b, m.edge w = some (a, b) →
    ∃ e ue, m.undirEdge w = some e ∧ m.edges.get e = some ue ∧ ue.vertices = (min a b, max a b)
  /-- there are no duplicate edges -/
  edgeUnique : ∀ e e' ue ue', m.edges.get e = some ue → m.edges.get e' = some ue' →
    ue.vertices = ue'.vertices → e = e'
  /-- every edge belongs to a tet -/
  edgeUsed : ∀ e ue, m.edges.get e = some ue → ∃ w, m.undirEdge w = some e
  /-- every oriented triangle belongs to a single tet -/
  triUnique : ∀ w w' s t, m.tri w = some s → m.tri w' = some t → Rotation s t →
    w' = w ∨ w' = w.nfe ∨ w' = w.pfe
  /-- the tets around an edge form a single ring -/
  oneRing : ∀ w w' e, m.edge w = some e → m.edge w' = some e → SameRing m w w'
  /-- the two sides of a triangle agree on whether it is locked -/
  locks : ∀ w w', m.toAdj w = some w' → m.triLocked w' = m.triLocked w
  /-- when the triangle index is maintained, its entries are right ... -/
  triMapSound : m.trackTriMap = true → ∀ s w, m.triMap s = some w →
    ∃ t, m.tri w = some t ∧ triKey t = s
  /-- ... and it has an entry for every triangle -/
  triMapComplete : m.trackTriMap = true → ∀ w t, m.tri w = some t →
    ∃ w', m.triMap (triKey t) = some w'

end Tet.Spec
