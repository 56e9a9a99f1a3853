import Verif.Model.PlcGeo
import Verif.Spec.Geo
import Verif.Spec.PlcValidate

/-!
# What the geometric tests of validation should decide
-/

namespace Tet.PlcSpec
open Plc

section
variable {K : Type} [Field K]

/-- Twice the signed area of a triangle in the plane. -/
def area (a b c : K × K) : K := (a.1 - c.1) * (b.2 - c.2) - (a.2 - c.2) * (b.1 - c.1)

/-- Weighted sum of points of the plane. -/
def comb2 (l : List (K × (K × K))) : K × K :=
  ((l.map fun x => x.1 * x.2.1).sum, (l.map fun x => x.1 * x.2.2).sum)

variable [LinearOrder K]

/-- `orient` decides the orientation of three points where they are not on a line. -/
def IsOrient (orient : K × K → K × K → K × K → Bool) : Prop :=
  ∀ a b c, area a b c ≠ 0 → orient a b c = decide (0 < area a b c)

/-- `p` is strictly inside the triangle. -/
def Inside (a b c p : K × K) : Prop :=
  ∃ ka kb kc : K, 0 < ka ∧ 0 < kb ∧ 0 < kc ∧ ka + kb + kc = 1 ∧ comb2 [(ka, a), (kb, b), (kc, c)] = p

/-- `p` is in the convex hull of the points: a weighted mean of some of them. -/
def InHull (l : List (K × K)) (p : K × K) : Prop :=
  ∃ w : List (K × (K × K)), (∀ x ∈ w, 0 ≤ x.1 ∧ x.2 ∈ l) ∧ (w.map Prod.fst).sum = 1 ∧ comb2 w = p

end

/-- The pairs of neighbours around a ring. -/
def around {A : Type} : List A → List (A × A)
  | [] => []
  | a :: l => (a :: l).zip (l ++ [a])

section
variable {K : Type} [Field K] [LinearOrder K] {D : Type}

/-- The point at the parameter `s` of the segment. -/
def along (e : Pt K × Pt K) (s : K) : Pt K := e.1.add (Pt.smul s (e.2.sub e.1))

/-- The geometric tests are right in exact arithmetic, for this tolerance; `u` and `w` are the first
two axes of the coordinate system of a face, in which `point_in_face` works. -/
structure Exact (tol : K) (u w : Plane K → Pt K) (orient : K × K → K × K → K × K → Bool)
    (t : Tests (Pt K) (Plane K) D) : Prop where
  twist : ∀ q x, (t.twist q x).isSome ↔ tol / 2 ≤ |(x.sub q.center).dot q.normal|
  vv : ∀ x y, (t.vv x y).isSome ↔ (x.sub y).norm2 < tol * tol
  ve : ∀ x e, (t.ve x e).isSome ↔ ∃ s, 0 ≤ s ∧ s ≤ 1 ∧ (x.sub (along e s)).norm2 < tol * tol
  ee : ∀ e e', (t.ee e e').isSome ↔ ∃ s s', 0 ≤ s ∧ s ≤ 1 ∧ 0 ≤ s' ∧ s' ≤ 1 ∧
    ((along e s).sub (along e' s')).norm2 < tol * tol
  vf : ∀ q x, (t.vf q x).isSome ↔ |(x.sub q.center).dot q.normal| < tol
  ef : ∀ q e x, t.ef q e = some x → ∃ s, 0 ≤ s ∧ s ≤ 1 ∧ x = along e s ∧ (x.sub q.center).dot q.normal = 0
  inFace : ∀ q x l, t.inFace q x l = (pointInFace orient
    (fun y => ((y.sub q.center).dot (u q), (y.sub q.center).dot (w q))) x l).getD false
  orient : IsOrient orient

/-- Three perpendicular vectors of length one. -/
def Orthonormal (u w n : Pt K) : Prop :=
  u.dot u = 1 ∧ w.dot w = 1 ∧ n.dot n = 1 ∧ u.dot w = 0 ∧ u.dot n = 0 ∧ w.dot n = 0

end

end Tet.PlcSpec
