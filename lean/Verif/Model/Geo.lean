import Verif.Model.Iter
import Mathlib.Algebra.Order.Field.Basic
import Mathlib.Order.WithBot

/-!
# Model of the geometric predicates (src/tet/geo.rs, src/tet.rs:1950-1995, 2116-2175)

Coordinates are in an ordered field `K` (exact arithmetic) instead of `f64`.  The predicates of
the crate `robust_geo`, whose documentation promises exact signs, are the determinants they
approximate.  Reading the position of a missing vertex is a panic (`none`).
-/

namespace Tet

/-- `Vec3` and `Pt3` -/
@[ext]
structure Pt (K : Type) where
  x : K
  y : K
  z : K
deriving DecidableEq

namespace Pt
variable {K : Type} [Field K]

def add (a b : Pt K) : Pt K := ⟨a.x + b.x, a.y + b.y, a.z + b.z⟩
def sub (a b : Pt K) : Pt K := ⟨a.x - b.x, a.y - b.y, a.z - b.z⟩
def smul (k : K) (a : Pt K) : Pt K := ⟨k * a.x, k * a.y, k * a.z⟩
def dot (a b : Pt K) : K := a.x * b.x + a.y * b.y + a.z * b.z
def cross (a b : Pt K) : Pt K :=
  ⟨a.y * b.z - a.z * b.y, a.z * b.x - a.x * b.z, a.x * b.y - a.y * b.x⟩
/-- `norm_squared` -/
def norm2 (a : Pt K) : K := a.dot a

/-- `((p0 + p1 + p2 + p3) / 4.0)`, src/tet.rs:1990 -/
def centroid4 (q : Pt K × Pt K × Pt K × Pt K) : Pt K :=
  smul (1 / 4) (((q.1.add q.2.1).add q.2.2.1).add q.2.2.2)

end Pt

section robust
variable {K : Type} [Field K]

/-- `robust_geo::orient_3d`: the determinant of `a-d`, `b-d`, `c-d`. -/
def orient3d (a b c d : Pt K) : K := (a.sub d).dot ((b.sub d).cross (c.sub d))

/-- `robust_geo::in_sphere`: the 4×4 determinant with rows `(p-e, |p-e|²)`, expanded along the
last column. -/
def inSphere (a b c d e : Pt K) : K :=
  let a := a.sub e
  let b := b.sub e
  let c := c.sub e
  let d := d.sub e
  d.norm2 * a.dot (b.cross c) - c.norm2 * a.dot (b.cross d) + b.norm2 * a.dot (c.cross d) -
    a.norm2 * b.dot (c.cross d)

/-- `robust_geo::cross_2d` of three coordinate planes, src/tet/geo.rs:288-293: the cross product of
the vectors `b-a` and `d-c`. -/
def crossEdges (a b c d : Pt K) : Pt K := (b.sub a).cross (d.sub c)

end robust

namespace Mesh
variable {K : Type} [Field K] {V T : Type}

/-- `idx`, src/tet.rs:2169-2171 -/
def idx (m : Mesh (Pt K) V T) (v : VId) : Option (Pt K) := (m.vertices.get v).map (·.position)

/-- `idx_ori`, src/tet.rs:2161-2167 -/
def idxOri (m : Mesh (Pt K) V T) (v : VId) : Option (Pt K) :=
  if v = GHOST then some m.center else m.idx v

/-- `[..].contains(&Self::GHOST)` as a sign -/
def ghostSign (vs : List VId) : K := if GHOST ∈ vs then -1 else 1

/-- `orient_3d`, src/tet/geo.rs:75-81 -/
def orient (m : Mesh (Pt K) V T) (v0 v1 v2 v3 : VId) : Option K := do
  let p0 ← m.idxOri v0
  let p1 ← m.idxOri v1
  let p2 ← m.idxOri v2
  let p3 ← m.idxOri v3
  return ghostSign [v0, v1, v2, v3] * orient3d p0 p1 p2 p3

/-- `orient_3d_sim`, src/tet/geo.rs:86-89, for an arbitrary `sim::orient_3d`. -/
def orientSim (sim : VId → VId → VId → VId → Bool) (v0 v1 v2 v3 : VId) : Bool :=
  decide (GHOST ∈ [v0, v1, v2, v3]) != sim v0 v1 v2 v3

/-- `tet_volume_x6`, src/tet.rs:1950-1968.  The outer `none` is a panic, the inner one the
returned `None`. -/
def tetVolumeX6 (m : Mesh (Pt K) V T) (k : TId) : Option (Option K) := do
  let t ← m.tets.get k
  let vs := t.vertices
  if GHOST ∈ [vs 0, vs 1, vs 2, vs 3] then return none
  else
    let p0 ← m.idx (vs 0)
    let p1 ← m.idx (vs 1)
    let p2 ← m.idx (vs 2)
    let p3 ← m.idx (vs 3)
    return some (-(((p1.sub p0).cross (p2.sub p0)).dot (p3.sub p0)))

/-- `tet_volume`, src/tet.rs:1971-1973 -/
def tetVolume (m : Mesh (Pt K) V T) (k : TId) : Option (Option K) :=
  (m.tetVolumeX6 k).map (Option.map (· / 6))

/-- `tet_centroid`, src/tet.rs:1976-1991 -/
def tetCentroid (m : Mesh (Pt K) V T) (k : TId) : Option (Option (Pt K)) := do
  let t ← m.tets.get k
  let vs := t.vertices
  if GHOST ∈ [vs 0, vs 1, vs 2, vs 3] then return none
  else
    let p0 ← m.idx (vs 0)
    let p1 ← m.idx (vs 1)
    let p2 ← m.idx (vs 2)
    let p3 ← m.idx (vs 3)
    return some (Pt.centroid4 (p0, p1, p2, p3))

/-- `vertex_distance2`, src/tet.rs:2132-2144; `⊤` is `f64::INFINITY`. -/
def vertexDistance2 (m : Mesh (Pt K) V T) (v0 v1 : VId) : Option (WithTop K) :=
  if v0 = GHOST then
    if v1 = GHOST then some ((0 : K) : WithTop K) else some ⊤
  else if v1 = GHOST then some ⊤
  else do
    let p0 ← m.idx v0
    let p1 ← m.idx v1
    return (((p0.sub p1).norm2 : K) : WithTop K)

/-- The seven pairs of vectors whose cross products are measured by `quality`, src/tet/geo.rs:128-131 -/
def qualityCross (p0 p1 p2 p3 : Pt K) : List (Pt K) :=
  [(p0, p1, p0, p2), (p3, p2, p3, p1), (p2, p3, p2, p0), (p1, p0, p1, p3), (p0, p1, p2, p3),
    (p0, p2, p1, p3), (p0, p3, p1, p2)].map fun (pa, pb, pc, pd) => (pb.sub pa).cross (pd.sub pc)

/-- The quality of a tet with solid vertices after sorting them, src/tet/geo.rs:102-132, with an
arbitrary norm. -/
def qualityPts [LinearOrder K] (norm : Pt K → K) (p0 p1 p2 p3 : Pt K) : K :=
  let volx6 := orient3d p0 p1 p2 p3
  if volx6 ≤ 0 then -1
  else volx6 / ((qualityCross p0 p1 p2 p3).map norm).foldl max (norm ((p1.sub p0).cross (p2.sub p0)))

/-- `quality`, src/tet/geo.rs:92-134.  `⊤` is `f64::INFINITY`; `centerNan` is
`self.center.x.is_nan()`. -/
def quality [LinearOrder K] (norm : Pt K → K) (sim : VId → VId → VId → VId → Bool) (centerNan : Bool)
    (m : Mesh (Pt K) V T) (v0 v1 v2 v3 : VId) : Option (WithTop K) :=
  if GHOST ∈ [v0, v1, v2, v3] then
    if centerNan || !sim v0 v1 v2 v3 then some ⊤ else some ((-1 : K) : WithTop K)
  else do
    let (v0, v1, v2, v3) := evenSorted4 (v0, v1, v2, v3)
    let p0 ← m.idxOri v0
    let p1 ← m.idxOri v1
    let p2 ← m.idxOri v2
    let p3 ← m.idxOri v3
    return ((qualityPts norm p0 p1 p2 p3 : K) : WithTop K)

/-- `in_sphere`, src/tet/geo.rs:145-169 -/
def inSphere (m : Mesh (Pt K) V T) (v0 v1 v2 v3 v4 : VId) : Option K := do
  let p0 ← m.idxOri v0
  let p1 ← m.idxOri v1
  let p2 ← m.idxOri v2
  let p3 ← m.idxOri v3
  let p4 ← m.idx v4
  return (if v0 = GHOST then orient3d p3 p2 p1 p4
    else if v1 = GHOST then orient3d p2 p3 p0 p4
    else if v2 = GHOST then orient3d p1 p0 p3 p4
    else if v3 = GHOST then orient3d p0 p1 p2 p4
    else Tet.inSphere p0 p1 p2 p3 p4)

/-- `tri_edge_bary`, src/tet/geo.rs:244-259 -/
def triEdgeBary (m : Mesh (Pt K) V T) (v0 v1 v2 v3 v4 : VId) : Option (List K) := do
  let bary0 ← m.orient v1 v2 v3 v4
  let bary1 ← m.orient v2 v0 v3 v4
  let bary2 ← m.orient v0 v1 v3 v4
  let bary3 ← m.orient v0 v1 v2 v4
  let bary4 ← m.orient v2 v1 v0 v3
  return [bary0, bary1, bary2, bary3, bary4]

/-- `bary.iter().all(|c| *c > 0.0) || bary.iter().all(|c| *c < 0.0)` -/
def sameSign [LinearOrder K] (bary : List K) : Bool :=
  bary.all (fun c => decide (0 < c)) || bary.all (fun c => decide (c < 0))

/-- `tri_intersects_edge`, src/tet/geo.rs:262-273 -/
def triIntersectsEdge [LinearOrder K] (m : Mesh (Pt K) V T) (v0 v1 v2 v3 v4 : VId) : Option Bool :=
  (m.triEdgeBary v0 v1 v2 v3 v4).map sameSign

/-- `tri_intersects_edge_sim`, src/tet/geo.rs:227-240 -/
def triIntersectsEdgeSim (sim : VId → VId → VId → VId → Bool) (v0 v1 v2 v3 v4 : VId) : Bool :=
  let positive := orientSim sim v2 v1 v0 v3
  orientSim sim v0 v1 v2 v4 == positive && orientSim sim v0 v1 v3 v4 == positive &&
    orientSim sim v1 v2 v3 v4 == positive && orientSim sim v2 v0 v3 v4 == positive

/-- `edge_edge_bary`, src/tet/geo.rs:276-307 -/
def edgeEdgeBary [DecidableEq K] (m : Mesh (Pt K) V T) (v0 v1 v2 v3 : VId) : Option (List K) := do
  let p0 ← m.idxOri v0
  let p1 ← m.idxOri v1
  let p2 ← m.idxOri v2
  let p3 ← m.idxOri v3
  let cross := crossEdges p0 p1 p2 p3
  if cross = ⟨0, 0, 0⟩ then return [0, 0, 0, 0]
  else
    let p4 := (if v2 = GHOST then p3 else p2).add cross
    return [ghostSign [v1, v2, v3] * orient3d p2 p1 p3 p4, ghostSign [v2, v0, v3] * orient3d p3 p0 p2 p4,
      ghostSign [v0, v1, v3] * orient3d p1 p3 p0 p4, ghostSign [v0, v1, v2] * orient3d p0 p2 p1 p4]

/-- `edge_intersects_edge`, src/tet/geo.rs:310-323 -/
def edgeIntersectsEdge [LinearOrder K] (m : Mesh (Pt K) V T) (v0 v1 v2 v3 : VId) : Option Bool := do
  let o ← m.orient v0 v1 v2 v3
  if o ≠ 0 then return false
  else
    let bary ← m.edgeEdgeBary v0 v1 v2 v3
    return sameSign bary

/-- `tet_intersects_vertex`, src/tet/geo.rs:464-477 -/
def tetIntersectsVertex (sim : VId → VId → VId → VId → Bool) (v0 v1 v2 v3 v4 : VId) : Bool :=
  orientSim sim v0 v1 v2 v4 && orientSim sim v3 v2 v1 v4 && orientSim sim v2 v3 v0 v4 &&
    orientSim sim v1 v0 v3 v4

end Mesh
end Tet
