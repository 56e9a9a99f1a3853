import Verif.Model.TriSteiner
import Verif.Spec.Points
import Verif.Spec.Recover

/-!
# Specification of recovering a triangle with Steiner points
-/

namespace Tet.Spec
variable {P K V T C : Type} [Field K] [LinearOrder K]

/-! ### The triangulation -/

/-- The faces that can be reached from a face without crossing a constraint, where `sides` and `face` tell what is next to what. -/
inductive FaceReached (ops : CdtOps K C) (cdt : C) (f0 : Nat) : Nat → Prop
  | start : FaceReached ops cdt f0 f0
  | step {f e : Nat} : FaceReached ops cdt f0 f → e ∈ ops.sides cdt f → ops.isConstraint cdt e = false →
      FaceReached ops cdt f0 (ops.face cdt e)

/-- What is expected of the triangulation: vertices keep their places, and triangles have different corners. -/
structure IsCdt (ops : CdtOps K C) : Prop where
  insert : ∀ c p, ops.vertex (ops.insert c p).1 (ops.insert c p).2 = some p
  keep : ∀ c p i q, ops.vertex c i = some q → ops.vertex (ops.insert c p).1 i = some q
  constraint : ∀ c a b i, ops.vertex (ops.addConstraint c a b) i = ops.vertex c i
  triangle : ∀ c f a b d, ops.triangle c f = some (a, b, d) → a ≠ b ∧ b ≠ d ∧ d ≠ a

/-- An affine map to the plane which sends the three points to a triangle in counterclockwise order. -/
def Flattens (xy : Pt K → K × K) (p0 p1 p2 : Pt K) : Prop :=
  (∃ f g : Pt K, ∃ c d : K, ∀ p, xy p = (f.dot p + c, g.dot p + d)) ∧ 0 < planeSide (xy p0) (xy p1) (xy p2)

/-! ### Triangles -/

/-- The point is in the triangle or in its boundary. -/
def InClosedTri (a b c p : Pt K) : Prop :=
  ∃ ka kb kc : K, 0 ≤ ka ∧ 0 ≤ kb ∧ 0 ≤ kc ∧ ka + kb + kc = 1 ∧ comb [(ka, a), (kb, b), (kc, c)] = p

/-- The point is on the line through two vertices. -/
def OnEdgeLine (m : Mesh (Pt K) V T) (e : VId × VId) (p : Pt K) : Prop :=
  ∃ a b, At m e.1 a ∧ At m e.2 b ∧ OnLine a b p

/-- The point is strictly inside the triangle of the mesh. -/
def InPiece (m : Mesh (Pt K) V T) (t : V3) (p : Pt K) : Prop :=
  ∃ a b c, At m t.1 a ∧ At m t.2.1 b ∧ At m t.2.2 c ∧ InTri a b c p

/-- The edge is a side of one of the triangles, in this direction. -/
def SideOf (ps : List V3) (e : VId × VId) : Prop := ∃ s ∈ ps, e ∈ triEdges s

/-- The triangles `ps` of the mesh are laid without gap or overlap on the triangle with the corners `p0`, `p1` and `p2`: of the
points in its plane that are not on a line through a side, those strictly inside the triangle are strictly inside one of them,
and the others are in none. -/
structure Paved (m : Mesh (Pt K) V T) (p0 p1 p2 : Pt K) (ps : List V3) : Prop where
  inside : ∀ q, InTri p0 p1 p2 q → (∀ e, SideOf ps e → ¬ OnEdgeLine m e q) → ∃! s, s ∈ ps ∧ InPiece m s q
  outside : ∀ q s, s ∈ ps → InPiece m s q → InClosedTri p0 p1 p2 q

/-! ### Recovering -/

/-- Vertices have been added, and nothing happened to the others. -/
structure Grown (m m' : Mesh (Pt K) V T) (l : List VId) : Prop where
  fresh : ∀ s ∈ l, m.vertices.get s = none
  nodup : l.Nodup
  new : ∀ s ∈ l, (m'.vertices.get s).isSome
  others : ∀ v, v ∉ l → (m'.vertices.get v).map (fun y => (y.position, y.value)) = (m.vertices.get v).map fun y => (y.position, y.value)
  inMesh : ∀ v, InMesh m' v ↔ v ∈ l ∨ InMesh m v
  center : m'.center = m.center

/-- The edges of locked triangles are locked. -/
def FullLocks (m : Mesh P V T) : Prop := ∀ a b c, LockedTri m (a, b, c) → LockedEdge m a b

/-- The vertices are in this order on the segment, strictly inside it, and have the value `x`. -/
def Dots (m : Mesh (Pt K) V T) (p0 p1 : Pt K) (x : V) (l : List VId) : Prop :=
  (∃ ts : List K, List.Forall₂ (fun s t => At m s (along p0 p1 t)) l ts ∧ (0 :: ts ++ [1]).IsChain (· < ·)) ∧
  ∀ s ∈ l, ∃ y, m.vertices.get s = some y ∧ y.value = x

/-- What recovering the triangle should do: the vertices `l0`, `l1`, `l2` on its edges and `l3` in it are new, the triangle is
paved with triangles of the mesh, which are locked with their edges, and nothing else is locked or unlocked. -/
structure TriRecovered (m m' : Mesh (Pt K) V T) (t : V3) (p0 p1 p2 : Pt K) (x0 x1 x2 : V) (l0 l1 l2 l3 : List VId) : Prop where
  sound : Sound m'
  grown : Grown m m' (l0 ++ l1 ++ l2 ++ l3)
  dots : Dots m' p0 p1 x0 l0 ∧ Dots m' p1 p2 x1 l1 ∧ Dots m' p2 p0 x2 l2
  inner : ∀ s ∈ l3, ∃ y, m'.vertices.get s = some y ∧ y.value = x0 ∧ InClosedTri p0 p1 p2 y.position
  pieces : ∃ ps : List V3, Paved m' p0 p1 p2 ps ∧
    (∀ s ∈ ps, ∀ v ∈ [s.1, s.2.1, s.2.2], v ∈ [t.1, t.2.1, t.2.2] ++ l0 ++ l1 ++ l2 ++ l3) ∧
    (∀ e ∈ pairs (t.1 :: l0 ++ [t.2.1]) ++ pairs (t.2.1 :: l1 ++ [t.2.2]) ++ pairs (t.2.2 :: l2 ++ [t.1]), SideOf ps e) ∧
    (∀ s, LockedTri m' s ↔ LockedTri m s ∨ ∃ s' ∈ ps, SameThree s s') ∧
    (∀ a b, LockedEdge m' a b ↔ LockedEdge m a b ∨ SideOf ps (a, b) ∨ SideOf ps (b, a))

end Tet.Spec
