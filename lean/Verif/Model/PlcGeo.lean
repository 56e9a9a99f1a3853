import Verif.Model.PlcValidate
import Verif.Model.Geo

/-!
# The geometry of validation (src/plc/intersect.rs:21-64, 213-252)

Coordinates are in an ordered field `K` (exact arithmetic) instead of `f64`.
-/

namespace Tet.Plc
variable {K : Type} [LinearOrder K]

/-- The body of the closure in `point_in_face`, src/plc/intersect.rs:45-56, for the two-dimensional
points `point.xy()`, `vertices[0].xy()` and `vertices[1].xy()`.  `orient` is `simplicity::orient_2d`
for these points. -/
def crosses (orient : K × K → K × K → K × K → Bool) (p a b : K × K) : Bool :=
  let (a, b) := if a.2 > b.2 then (b, a) else (a, b)
  a.2 ≤ p.2 && p.2 < b.2 && orient p a b

/-- The closed ring: `ring.push(ring[0])`, `ring.windows(2)`, src/plc/intersect.rs:42-44.  `none` is
the panic of `ring[0]`. -/
def windows (ring : List (K × K)) : Option (List ((K × K) × (K × K))) := do
  let first ← ring[0]?
  let ring := ring ++ [first]
  return ring.zip ring.tail

/-- `point_in_face`, src/plc/intersect.rs:21-64.  `xy` gives the first two coordinates after the
transform of lines 28-35. -/
def pointInFace {P : Type} (orient : K × K → K × K → K × K → Bool) (xy : P → K × K) (point : P)
    (face : List (List P)) : Option Bool := do
  let counts ← face.mapM fun ring => do
    let ws ← windows (ring.map xy)
    return (ws.map fun w => (crosses orient (xy point) w.1 w.2).toNat).sum % 2
  return counts.sum % 2 != 0

variable [Field K]

/-- `AABB<f64>`, `mins` and `maxs` -/
structure Aabb (K : Type) where
  mins : Pt K
  maxs : Pt K

/-- The smallest coordinate of some points: the loop of `local_point_cloud_aabb`.  Without points the
source panics; there always are some. -/
def least : List K → K
  | [] => 0
  | x :: l => l.foldl min x

/-- The greatest coordinate. -/
def greatest : List K → K
  | [] => 0
  | x :: l => l.foldl max x

/-- The bounding box of points, widened: `vertex_bound`, `edge_bound`, `face_bound`,
src/plc/intersect.rs:213-252 -/
def aabb (tolerance : K) (l : List (Pt K)) : Aabb K where
  mins := ⟨least (l.map (·.x)) - tolerance, least (l.map (·.y)) - tolerance, least (l.map (·.z)) - tolerance⟩
  maxs := ⟨greatest (l.map (·.x)) + tolerance, greatest (l.map (·.y)) + tolerance,
    greatest (l.map (·.z)) + tolerance⟩

/-- `AABB::intersects` of `ncollide3d`: in every coordinate neither is beyond the other. -/
def Aabb.intersects (a b : Aabb K) : Bool :=
  a.mins.x ≤ b.maxs.x && a.mins.y ≤ b.maxs.y && a.mins.z ≤ b.maxs.z &&
  b.mins.x ≤ a.maxs.x && b.mins.y ≤ a.maxs.y && b.mins.z ≤ a.maxs.z

/-- The bounding boxes of `validate`. -/
def aabbs (tolerance : K) : Boxes (Pt K) (Aabb K) := ⟨aabb tolerance, Aabb.intersects⟩

/-- The plane of a face: centre and normal, src/plc.rs:200 -/
structure Plane (K : Type) where
  center : Pt K
  normal : Pt K
deriving DecidableEq

/-- The sum of vectors. -/
def sumPt (l : List (Pt K)) : Pt K := l.foldr Pt.add ⟨0, 0, 0⟩

/-- The plane computed by `calc_face_plane`, src/plc.rs:535-546, from the points and the end points of
the edges.  `norm` is the length of vectors.  A zero normal gives zero here, but NaN in the source. -/
def newell (norm : Pt K → K) (points : List (Pt K)) (edges : List (Pt K × Pt K)) : Plane K :=
  let center := Pt.smul (1 / (points.length : K)) (sumPt points)
  let normal := sumPt (edges.map fun e => (e.1.sub center).cross (e.2.sub center))
  ⟨center, Pt.smul (1 / norm normal) normal⟩

/-- The geometry of `add_face`.  The initial plane (src/plc.rs:209-212, a NaN point) is never seen. -/
def newellGeom (norm : Pt K → K) : Geom (Pt K) (Plane K) := ⟨⟨⟨0, 0, 0⟩, ⟨1, 0, 0⟩⟩, newell norm⟩

end Tet.Plc
