import Verif.Model.Progress

/-!
# Model of the intersections of an edge or a triangle with the mesh (src/tet/geo.rs:326-428, 537-616)

In exact arithmetic.  A vector that is only used as a stack is a list whose head is the last element of the source's
vector.  `FnvHashSet` is a list of which only membership is used.
-/

namespace Tet

/-- `EdgeIntersectionRaw`, src/tet/geo.rs:5-10 -/
structure EdgeInter (K : Type) where
  other : EdgeOrTri
  bary : K × K

/-- `TriIntersectionRaw`, src/tet/geo.rs:18-23 -/
structure TriInter (K : Type) where
  edge : VId × VId
  bary : K × K × K

/-- `EdgeOrTri::sorted`, src/tet.rs:298-303, as well as src/tet/geo.rs:422-425 -/
def EdgeOrTri.sorted : EdgeOrTri → EdgeOrTri
  | .edge e => .edge (sorted2 e)
  | .tri t => .tri (sorted3 t)

namespace Mesh
variable {K V T : Type} [Field K] [LinearOrder K]

/-- Collecting the walkers of `walkers_from_vertex`; `none` if there are `fuel` or more. -/
def collectWalkers {P V T : Type} (m : Mesh P V T) : Nat → WalkersState → Option (List Walker)
  | 0, _ => none
  | fuel + 1, s => do
    let (r, s) ← m.walkersNext s
    match r with
    | none => return []
    | some w =>
      let ws ← collectWalkers m fuel s
      return w :: ws

/-- `walkers_from_vertex(v).collect()`, src/tet.rs:2043-2049 -/
def walkersOf {P V T : Type} (m : Mesh P V T) (fuel : Nat) (v : VId) : Option (List Walker) := do
  let s ← m.walkersFromVertex v
  m.collectWalkers fuel s

/-- The first pass of `tri_raw`, src/tet/geo.rs:331-340, and `end`.  From the first triangle with `v1` on the walkers
get zeros, which are never found in the second pass; they are left out. -/
def triBarys (m : Mesh (Pt K) V T) (v0 v1 : VId) : List Walker → Option (List (Walker × List K) × Bool)
  | [] => some ([], false)
  | w :: ws => do
    let (a, b, c) ← m.tri w
    if v1 ∈ [a, b, c] then return ([], true)
    else
      let bary ← m.triEdgeBary a b c v0 v1
      let (rest, stop) ← triBarys m v0 v1 ws
      return ((w, bary) :: rest, stop)

/-- The condition of the second pass of `tri_raw`, src/tet/geo.rs:342: `&&` binds stronger than `||`. -/
def triFound (stop : Bool) (bary : List K) : Bool :=
  (!stop && bary.all (fun c => decide (0 < c))) || bary.all (fun c => decide (c < 0))

/-- `tri_raw`, src/tet/geo.rs:327-347 -/
def triRaw (m : Mesh (Pt K) V T) (v0 v1 : VId) (ws : List Walker) : Option (Option (Walker × EdgeInter K) × Bool) := do
  let (barys, stop) ← m.triBarys v0 v1 ws
  match barys.find? (fun p => triFound stop p.2) with
  | none => return (none, stop)
  | some (w, bary) =>
    let t ← m.tri w
    let b3 ← bary[3]?
    let b4 ← bary[4]?
    return (some (w, ⟨.tri t, (b3, b4)⟩), stop)

/-- `edge_raw` for edges, src/tet/geo.rs:349-369 -/
def edgeRaw (m : Mesh (Pt K) V T) (v0 v1 : VId) : List Walker → Option (Option (Walker × EdgeInter K))
  | [] => some none
  | w :: ws => do
    let (a, b) ← m.edge w
    let o ← m.orient a b v0 v1
    if o ≠ 0 then edgeRaw m v0 v1 ws
    else
      let bary ← m.edgeEdgeBary a b v0 v1
      if sameSign bary then
        let b2 ← bary[2]?
        let b3 ← bary[3]?
        return some (w, ⟨.edge (a, b), (b2, b3)⟩)
      else edgeRaw m v0 v1 ws

/-- The triangles first, then the edges if there is no triangle and the end is not reached, src/tet/geo.rs:375-383,
391-400, 407-419; `keep` is what is taken if the end is reached: the triangle at the start, nothing later on. -/
def triOrEdge (m : Mesh (Pt K) V T) (v0 v1 : VId) (keep : Bool) (tris edges : List Walker) :
    Option (Option (Walker × EdgeInter K)) := do
  let (r, stop) ← m.triRaw v0 v1 tris
  if stop then return if keep then r else none
  else
    match r with
    | some x => return some x
    | none => m.edgeRaw v0 v1 edges

/-- `first`, src/tet/geo.rs:374-383 -/
def firstInter (m : Mesh (Pt K) V T) (fuel : Nat) (v0 v1 : VId) : Option (Option (Walker × EdgeInter K)) := do
  let ws ← m.walkersOf fuel v0
  m.triOrEdge v0 v1 true (ws.map (·.perm P3210)) (ws.flatMap fun w => [w.perm P3210, w.perm P2130, w.perm P1320])

/-- `filter(|w| Some(sorted_3(w.tri(self))) != prev.as_tri())`, src/tet/geo.rs:409 -/
def notPrevTri {P V T : Type} (m : Mesh P V T) (prev : EdgeOrTri) (w : Walker) : Bool :=
  match m.tri w with
  | none => true
  | some t => decide (.tri (sorted3 t) ≠ prev)

/-- `filter(|w| Some(sorted_2(w.edge(self))) != prev.as_edge())`, src/tet/geo.rs:418 -/
def notPrevEdge {P V T : Type} (m : Mesh P V T) (prev : EdgeOrTri) (w : Walker) : Bool :=
  match m.edge w with
  | none => true
  | some e => decide (.edge (sorted2 e) ≠ prev)

/-- The next intersection, src/tet/geo.rs:386-421 -/
def nextInter (m : Mesh (Pt K) V T) (fuel : Nat) (v0 v1 : VId) (prev : EdgeOrTri) (x : Walker × EdgeInter K) :
    Option (Option (Walker × EdgeInter K)) :=
  match x.2.other with
  | .tri _ => do
    let w ← m.toAdjAe x.1
    m.triOrEdge v0 v1 false [w.twin, w.opp, w.perm P3210] [w.perm P0312, w.perm P1320, w.perm P2301]
  | .edge _ => do
    let ring ← m.edgeRing fuel x.1
    m.triOrEdge v0 v1 false ((ring.flatMap fun w => [w.opp, w.perm P3210]).filter (m.notPrevTri prev))
      ((ring.flatMap fun w => [w.perm P0312, w.perm P1320, w.perm P2301]).filter (m.notPrevEdge prev))

/-- `iter::successors(..)`, src/tet/geo.rs:385-427; `none` if there are more than `steps` intersections. -/
def interLoop (m : Mesh (Pt K) V T) (fuel : Nat) (v0 v1 : VId) :
    Nat → EdgeOrTri → Option (Walker × EdgeInter K) → Option (List (Walker × EdgeInter K))
  | _, _, none => some []
  | 0, _, some _ => none
  | steps + 1, prev, some x => do
    let next ← m.nextInter fuel v0 v1 prev x
    let rest ← interLoop m fuel v0 v1 steps x.2.other.sorted next
    return x :: rest

/-- `edge_intersections_raw`, src/tet/geo.rs:326-428, with the walkers -/
def edgeIntersections (m : Mesh (Pt K) V T) (fuel steps : Nat) (v0 v1 : VId) : Option (List (Walker × EdgeInter K)) := do
  let first ← m.firstInter fuel v0 v1
  m.interLoop fuel v0 v1 steps (.edge (idMax, idMax)) first

/-- `edge_raw` for triangles, src/tet/geo.rs:538-551, for one walker -/
def crossingEdge (m : Mesh (Pt K) V T) (t : V3) (w : Walker) : Option (Option (TriInter K)) := do
  let (a, b) ← m.edge w
  let bary ← m.triEdgeBary t.1 t.2.1 t.2.2 a b
  if sameSign bary then
    let b0 ← bary[0]?
    let b1 ← bary[1]?
    let b2 ← bary[2]?
    return some ⟨(a, b), (b0, b1, b2)⟩
  else return none

/-- `edge_raw` for triangles, src/tet/geo.rs:538-551 -/
def firstCrossing (m : Mesh (Pt K) V T) (t : V3) : List Walker → Option (Option (Walker × TriInter K))
  | [] => some none
  | w :: ws => do
    match ← m.crossingEdge t w with
    | some i => return some (w, i)
    | none => firstCrossing m t ws

/-- `walker.edge_ring(self).flat_map(|w| vec![w.to_nfe(), w.to_pfe()])`, src/tet/geo.rs:562-563, 571-572 -/
def aroundEdge {P V T : Type} (m : Mesh P V T) (fuel : Nat) (w : Walker) : Option (List Walker) := do
  let ring ← m.edgeRing fuel w
  return ring.flatMap fun w => [w.nfe, w.pfe]

/-- The loop, src/tet/geo.rs:567-576; `none` also if there are `steps` or more rounds. -/
def crossLoop (m : Mesh (Pt K) V T) (fuel : Nat) (t : V3) :
    Nat → List Walker → List (VId × VId) → Option (List (TriInter K))
  | 0, _, _ => none
  | _ + 1, [], _ => some []
  | steps + 1, w :: search, visited => do
    let e ← m.edge w
    if sorted2 e ∈ visited then crossLoop m fuel t steps search visited
    else
      match ← m.crossingEdge t w with
      | some i =>
        let more ← m.aroundEdge fuel w
        let rest ← crossLoop m fuel t steps (more.reverse ++ search) (sorted2 e :: visited)
        return i :: rest
      | none => crossLoop m fuel t steps search (sorted2 e :: visited)

/-- `tri_intersections_raw`, src/tet/geo.rs:537-581; `unwrap` is `none`. -/
def triIntersections (m : Mesh (Pt K) V T) (fuel : Nat) (t : V3) : Option (List (TriInter K)) := do
  let w ← (← m.walkerFromEdge fuel (t.1, t.2.1))
  let ring ← m.edgeRing fuel w
  match ← m.firstCrossing t (ring.map (·.opp)) with
  | none => return []
  | some (w, i) =>
    let e ← m.edge w
    let more ← m.aroundEdge fuel w
    let rest ← m.crossLoop fuel t fuel more.reverse [sorted2 e]
    return i :: rest

end Mesh
end Tet
