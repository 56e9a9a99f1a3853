import Verif.Model.Recover
import Verif.Model.Delaunay

/-!
# Model of intersection points and tests with tolerances (src/tet/geo.rs:52-63, 136-139, 196-224, 479-535, 583-629)

In exact arithmetic.
-/

namespace Tet
variable {K V T : Type} [Field K] [LinearOrder K]

/-- `p0 + (p1 - p0) * inter.bary[1] / sum + (p2 - p0) * inter.bary[2] / sum`, src/tet/geo.rs:590-593, 607-610 -/
def triPoint (p0 p1 p2 : Pt K) (bary : K × K × K) : Pt K :=
  let sum := bary.1 + bary.2.1 + bary.2.2
  ⟨p0.x + (p1.x - p0.x) * bary.2.1 / sum + (p2.x - p0.x) * bary.2.2 / sum,
    p0.y + (p1.y - p0.y) * bary.2.1 / sum + (p2.y - p0.y) * bary.2.2 / sum,
    p0.z + (p1.z - p0.z) * bary.2.1 / sum + (p2.z - p0.z) * bary.2.2 / sum⟩

namespace Mesh

/-- `tri_intersections`, src/tet/geo.rs:598-613 -/
def triPoints (m : Mesh (Pt K) V T) (fuel : Nat) (t : V3) : Option (List ((VId × VId) × Pt K)) := do
  let p0 ← m.idx t.1
  let p1 ← m.idx t.2.1
  let p2 ← m.idx t.2.2
  let inters ← m.triIntersections fuel t
  return inters.map fun i => (i.edge, triPoint p0 p1 p2 i.bary)

/-- `tri_normal`, src/tet/geo.rs:53-63; `robust_geo::orient_2d(a, b, c)` is the determinant of `a - c` and `b - c`. -/
def triNormal (m : Mesh (Pt K) V T) (v0 v1 v2 : VId) : Option (Pt K) := do
  let p0 ← m.idx v0
  let p1 ← m.idx v1
  let p2 ← m.idx v2
  let orient2d := fun (ax ay bx by' cx cy : K) => (ax - cx) * (by' - cy) - (ay - cy) * (bx - cx)
  return ⟨orient2d p0.y p0.z p1.y p1.z p2.y p2.z, orient2d p0.z p0.x p1.z p1.x p2.z p2.x, orient2d p0.x p0.y p1.x p1.y p2.x p2.y⟩

/-- `non_sliver`, src/tet/geo.rs:137-139 -/
def nonSliver (norm : Pt K → K) (sim : VId → VId → VId → VId → Bool) (centerNan : Bool) (tolerance : K)
    (m : Mesh (Pt K) V T) (v0 v1 v2 v3 : VId) : Option Bool :=
  (m.quality norm sim centerNan v0 v1 v2 v3).map fun q => decide ((tolerance : WithTop K) ≤ q)

/-- `(u - o).cross(&(v - o)).normalize().dot(&(p - o))`, src/tet/geo.rs:214-221.  If the cross product is zero, this is zero
instead of NaN. -/
def planeDistance (norm : Pt K → K) (o u v p : Pt K) : K :=
  (Pt.smul (norm ((u.sub o).cross (v.sub o)))⁻¹ ((u.sub o).cross (v.sub o))).dot (p.sub o)

/-- `tet_close_to_vertex`, src/tet/geo.rs:199-224; `⊥` is `-f64::INFINITY`. -/
def tetCloseToVertex (norm : Pt K → K) (tolerance : K) (m : Mesh (Pt K) V T) (v0 v1 v2 v3 v4 : VId) : Option Bool := do
  let p0 ← m.idxOri v0
  let p1 ← m.idxOri v1
  let p2 ← m.idxOri v2
  let p3 ← m.idxOri v3
  let p4 ← m.idxOri v4
  let ghost := [v0, v1, v2, v3].findIdx? (· == GHOST)
  let away := fun (i : Nat) (d : K) => if (ghost.filter (· != i)).isSome then (⊥ : WithBot K) else (d : WithBot K)
  let d0 := away 0 (planeDistance norm p3 p2 p1 p4)
  let d1 := away 1 (planeDistance norm p2 p3 p0 p4)
  let d2 := away 2 (planeDistance norm p1 p0 p3 p4)
  let d3 := away 3 (planeDistance norm p0 p1 p2 p4)
  return decide (max (max (max d0 d1) d2) d3 < (tolerance : WithBot K))

/-- `bary.iter().all(|c| *c >= 0.0) || bary.iter().all(|c| *c <= 0.0)` -/
def weakSign (bary : List K) : Bool :=
  bary.all (fun c => decide (0 ≤ c)) || bary.all (fun c => decide (c ≤ 0))

/-- The first `map` of `time_until_not_star_shaped`, src/tet/geo.rs:619-623 -/
def oppBary (m : Mesh (Pt K) V T) (center target : VId) (w : Walker) : Option (List K) := do
  let (a, b, c) ← m.oppTri w
  m.triEdgeBary a b c center target

/-- The other closures of `time_until_not_star_shaped`, src/tet/geo.rs:623-625: the time, if there is one -/
def baryTime (bary : List K) : Option K := do
  if weakSign bary then
    let b3 ← bary[3]?
    let b4 ← bary[4]?
    let time := b4 / (b3 + b4)
    if 0 < time then return time else none
  else none

/-- `time_until_not_star_shaped`, src/tet/geo.rs:618-629 -/
def timeUntilNotStarShaped (m : Mesh (Pt K) V T) (fuel : Nat) (ball center target : VId) : Option (Option K) := do
  let ws ← m.walkersOf fuel ball
  let barys ← ws.mapM (m.oppBary center target)
  return minByKey (fun a b => decide (a ≤ b)) ((barys.filterMap baryTime).map fun t => (t, t))

/-- `edge_raw` for several triangles, src/tet/geo.rs:481-505, for one walker: the first triangle that is hit.  The condition is
as in the source, where `&&` binds stronger than `||`. -/
def crossingTris (m : Mesh (Pt K) V T) (tris : List V3) (w : Walker) : List V3 → Option (Option (TriInter K × V3))
  | [] => some none
  | t :: rest => do
    let (a, b) ← m.edge w
    let bary ← m.triEdgeBary t.1 t.2.1 t.2.2 a b
    if (!tris.any (fun t => decide (a ∈ [t.1, t.2.1, t.2.2]) || decide (b ∈ [t.1, t.2.1, t.2.2])) &&
        bary.all (fun c => decide (0 ≤ c))) || bary.all (fun c => decide (c ≤ 0)) then
      let b0 ← bary[0]?
      let b1 ← bary[1]?
      let b2 ← bary[2]?
      return some (⟨(a, b), (b0, b1, b2)⟩, t)
    else crossingTris m tris w rest

/-- `edge_raw` for several triangles, src/tet/geo.rs:481-505 -/
def firstCrossingTris (m : Mesh (Pt K) V T) (tris : List V3) : List Walker → Option (Option (Walker × TriInter K × V3))
  | [] => some none
  | w :: ws => do
    match ← m.crossingTris tris w tris with
    | some i => return some (w, i)
    | none => firstCrossingTris m tris ws

/-- The loop of `tris_intersections_raw`, src/tet/geo.rs:521-529; `none` also if there are `steps` or more rounds. -/
def crossTrisLoop (m : Mesh (Pt K) V T) (fuel : Nat) (tris : List V3) :
    Nat → List Walker → List (VId × VId) → Option (List (TriInter K × V3))
  | 0, _, _ => none
  | _ + 1, [], _ => some []
  | steps + 1, w :: search, visited => do
    let e ← m.edge w
    if sorted2 e ∈ visited then crossTrisLoop m fuel tris steps search visited
    else
      match ← m.crossingTris tris w tris with
      | some i =>
        let more ← m.aroundEdge fuel w
        let rest ← crossTrisLoop m fuel tris steps (more.reverse ++ search) (sorted2 e :: visited)
        return i :: rest
      | none => crossTrisLoop m fuel tris steps search (sorted2 e :: visited)

/-- `tris_intersections_raw`, src/tet/geo.rs:480-535 -/
def trisIntersections (m : Mesh (Pt K) V T) (fuel : Nat) (tris : List V3) (start : VId × VId) : Option (List (TriInter K × V3)) := do
  let w ← (← m.walkerFromEdge fuel start)
  let ring ← m.edgeRing fuel w
  match ← m.firstCrossingTris tris (ring.map (·.opp)) with
  | none => return []
  | some (w, i) =>
    let e ← m.edge w
    let more ← m.aroundEdge fuel w
    let rest ← m.crossTrisLoop fuel tris fuel more.reverse [sorted2 e]
    return i :: rest

/-- `tris_intersections`, src/tet/geo.rs:584-596 -/
def trisPoints (m : Mesh (Pt K) V T) (fuel : Nat) (tris : List V3) (start : VId × VId) : Option (List ((VId × VId) × Pt K)) := do
  let inters ← m.trisIntersections fuel tris start
  inters.mapM fun (i, t) => do
    let p0 ← m.idx t.1
    let p1 ← m.idx t.2.1
    let p2 ← m.idx t.2.2
    return (i.edge, triPoint p0 p1 p2 i.bary)

end Mesh
end Tet
