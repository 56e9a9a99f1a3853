import Verif.Model.MoveSteiner
import Verif.Spec.TriSteiner

/-!
# Specification of moving Steiner points off a triangle
-/

namespace Tet.Spec
variable {K V T C : Type} [Field K] [LinearOrder K]

/-- The mesh has this vertex, with this position and value. -/
def Vert (m : Mesh (Pt K) V T) (v : VId) (p : Pt K) (x : V) : Prop := ∃ y, m.vertices.get v = some y ∧ y.position = p ∧ y.value = x

/-- Each vertex of `ps` was moved and got a copy in `ss` with the same value, which is elsewhere; `G` tells by which vectors the
vertex and the copy have been moved from the old position.  All other vertices are as before. -/
structure MovedApart (m m' : Mesh (Pt K) V T) (ps ss : List VId) (G : VId → Pt K → Pt K → Prop) : Prop where
  pairs : List.Forall₂ (fun p s => ∃ q x d d', G p d d' ∧ Vert m p q x ∧ Vert m' p (q.add d) x ∧ Vert m' s (q.add d') x) ps ss
  fresh : ∀ s ∈ ss, m.vertices.get s = none
  nodup : ss.Nodup
  others : ∀ v, v ∉ ps → v ∉ ss → ∀ q x, Vert m' v q x ↔ Vert m v q x

/-- The two vectors point to different sides of a plane with the normal `n`, and both away from it towards `o`. -/
def Astride (n o d d' : Pt K) : Prop :=
  ∃ k l k' l' : K, 0 < k ∧ 0 < l ∧ 0 < k' ∧ 0 < l' ∧ d = (Pt.smul k n).add (Pt.smul l o) ∧ d' = (Pt.smul (-k') n).add (Pt.smul l' o)

/-- The two vectors are perpendicular to the plane and do not point to the same side. -/
def Opposed (n d d' : Pt K) : Prop := ∃ k k' : K, 0 ≤ k ∧ 0 ≤ k' ∧ d = Pt.smul k n ∧ d' = Pt.smul (-k') n

/-- Where Steiner points go.  Those on an edge leave the plane of the triangle and go away from it, perpendicularly to the edge;
those inside leave the plane perpendicularly, or stay. -/
def OffTriangle (p0 p1 p2 : Pt K) (l0 l1 l2 l3 : List VId) (p : VId) (d d' : Pt K) : Prop :=
  let n := (p1.sub p0).cross (p2.sub p0)
  (p ∈ l0 → Astride n ((p1.sub p0).cross n) d d') ∧ (p ∈ l1 → Astride n ((p2.sub p1).cross n) d d') ∧
  (p ∈ l2 → Astride n ((p0.sub p2).cross n) d d') ∧ (p ∈ l3 → Opposed n d d')

/-- The lists in turns -/
def weave : List VId → List VId → List VId
  | a :: l, b :: l' => a :: b :: weave l l'
  | _, _ => []

end Tet.Spec
