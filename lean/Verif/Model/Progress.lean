import Verif.Model.FlipQuality
import Verif.Model.Geo

/-!
# Model of `progress_by_removing_edge` and `progress_by_removing_tri` (src/tet.rs:1180-1512)

The geometric tests and the two closures are parameters.  A vector that is only used as a stack is a list whose head
is the last element of the source's vector; `goals` and `bad_edges` keep the source's order.
-/

namespace Tet

/-- The tests.  `<= 0.0` in the source is taken as the negation of `> 0.0`, so coordinates that are not numbers are
left out. -/
structure ProgressTests (P V T : Type) where
  /-- `mesh.orient_3d(..) > 0.0` -/
  pos : Mesh P V T → V4 → Bool
  /-- `edge_addable` -/
  edgeAddable : Mesh P V T → VId × VId → Bool
  /-- `tri_addable` -/
  triAddable : Mesh P V T → V3 → Bool

/-- What the two functions change: `mesh`, `goals`, `bad_edges`, src/tet.rs:1196-1201. -/
structure ProgressState (P V T : Type) where
  mesh : Mesh P V T
  goals : List EdgeOrTri
  bad : List (VId × VId)

/-- `tri_opps` and `next_tri_opps` after the inner loop of `progress_by_removing_edge`, src/tet.rs:1236-1263, or the
index with which it returns from the function; `reduced` is `continue 'reduce`. -/
inductive RingPass where
  | returned (index : Nat)
  | done (opps next : List VId) (reduced : Bool)
deriving DecidableEq

/-- What one round of the inner loop does with its triangle, src/tet.rs:1237-1256: it is not there any more, it is
kept, or another goal was reached. -/
inductive TriPass where
  | gone
  | kept
  | other (index : Nat)
deriving DecidableEq

namespace Mesh
variable {P V T : Type}

/-- `walker.edge_ring(mesh).collect()`, src/tet.rs:490-497; `none` if there are `fuel` or more walkers. -/
def collectRing (m : Mesh P V T) : Nat → CircIter Walker → Option (List Walker)
  | 0, _ => none
  | fuel + 1, it => do
    let (r, it) ← m.edgeRingNext it
    match r with
    | none => return []
    | some w =>
      let ws ← collectRing m fuel it
      return w :: ws

def edgeRing (m : Mesh P V T) (fuel : Nat) (w : Walker) : Option (List Walker) := m.collectRing fuel (CircIter.new w)

/-- `mesh.tri_map[&TriVertices::new([edge[0], edge[1], v])].to_edge_assuming_tri(mesh, edge)`, src/tet.rs:1341-1342,
1354-1355 -/
def ringWalker (m : Mesh P V T) (edge : VId × VId) (v : VId) : Option Walker := do
  let w ← m.triMap (triKey (edge.1, edge.2, v))
  m.toEdgeAssumingTri w edge

end Mesh

namespace ProgressState
variable {P V T : Type}

/-- `goals.push(goal)` -/
def pushGoal (s : ProgressState P V T) (goal : EdgeOrTri) : ProgressState P V T := { s with goals := s.goals ++ [goal] }

/-- `goals.pop()` -/
def popGoal (s : ProgressState P V T) : ProgressState P V T := { s with goals := s.goals.dropLast }

/-- `!bad_edges.contains(&sorted_2(edge))` -/
def notBad (s : ProgressState P V T) (edge : VId × VId) : Bool := decide (sorted2 edge ∉ s.bad)

/-- Calling `progress_by_removing_tri` with the edge added to `bad_edges`, src/tet.rs:1239-1248, 1358-1367. -/
def tryTri (child : Walker → ProgressState P V T → Option (ProgressState P V T × Option Nat)) (edge : VId × VId)
    (w : Walker) (s : ProgressState P V T) : Option (ProgressState P V T × Option Nat) := do
  let (s, index) ← child w { s with bad := s.bad ++ [sorted2 edge] }
  return ({ s with bad := s.bad.dropLast }, index)

/-- The triangle of the inner loop, src/tet.rs:1237-1256. -/
def ringTri (child : Walker → ProgressState P V T → Option (ProgressState P V T × Option Nat)) (fuel : Nat)
    (edge : VId × VId) (v2 : VId) (s : ProgressState P V T) : Option (ProgressState P V T × TriPass) := do
  match ← s.mesh.walkerFromTri fuel (edge.1, edge.2, v2) with
  | none => return (s, .gone)
  | some w =>
    let (s, index) ← s.tryTri child edge w
    match index with
    | none => return (s, .kept)
    | some i => return (s, if i < s.goals.length then .other i else .gone)

/-- The inner loop, src/tet.rs:1236-1263. -/
def ringPass (child : Walker → ProgressState P V T → Option (ProgressState P V T × Option Nat)) (fuel : Nat)
    (edge : VId × VId) : List VId → List VId → ProgressState P V T → Option (ProgressState P V T × RingPass)
  | [], next, s => some (s, .done [] next false)
  | v2 :: opps, next, s => do
    let (s, r) ← s.ringTri child fuel edge v2
    match r with
    | .other i => return (s.popGoal, .returned i)
    | r =>
      let next := if r = .kept then v2 :: next else next
      if opps.length + next.length ≤ 3 then return (s, .done opps next true)
      else ringPass child fuel edge opps next s

/-- One configuration of a 4-to-4 flip, src/tet.rs:1276-1330: the index of the goal if it is flipped.  The
conditions are in the order of the source; what they read exists for the walkers of a ring. -/
def try44 (tests : ProgressTests P V T) (w0 w1 w2 w3 : Walker) (s : ProgressState P V T) :
    Option (ProgressState P V T × Option Nat) := do
  let m := s.mesh
  let v0 ← m.first w0
  let v1 ← m.third w2
  let v2 ← m.second w0
  let v3 ← m.third w0
  let vt ← m.fourth w2
  let vb ← m.fourth w0
  let l0 ← m.triLocked w0
  let l1 ← m.triLocked w1
  let l2 ← m.triLocked w2
  let l3 ← m.triLocked w3
  if s.notBad (v1, vt) && s.notBad (vt, v3) && s.notBad (v3, vb) && s.notBad (vb, v1) && s.notBad (v0, v1) &&
      s.notBad (v1, v2) && s.notBad (v2, v3) && s.notBad (v3, v0) && tests.edgeAddable m (v1, v3) &&
      tests.triAddable m (v1, vt, v3) && tests.triAddable m (v1, v0, v3) && tests.triAddable m (v1, vb, v3) &&
      tests.triAddable m (v1, v2, v3) && !l0 && !l1 && !l2 && !l3 && tests.pos m (v1, v2, v3, vb) &&
      tests.pos m (v1, vt, v3, v2) && tests.pos m (v1, v0, v3, vt) && tests.pos m (v1, vb, v3, v0) then
    let (m', _) ← m.flip44Unchecked w0
    let last ← s.goals.getLast?
    let index ← s.goals.findIdx? fun g => g ∈ [last, .tri (sorted3 (v0, v2, v3)), .tri (sorted3 (v0, v2, vb)),
      .tri (sorted3 (v0, v2, v1)), .tri (sorted3 (v0, v2, vt))]
    return ({ s with mesh := m' }, some index)
  else return (s, none)

/-- The last attempt if no triangle could be removed, src/tet.rs:1273-1335, with the ring at hand. -/
def lastTry (tests : ProgressTests P V T) (s : ProgressState P V T) :
    List Walker → Option (ProgressState P V T × Option Nat)
  | [r0, r1, r2, r3] => do
    let (s, index) ← s.try44 tests r0 r1 r2 r3
    match index with
    | some i => return (s, some i)
    | none => s.try44 tests r1 r2 r3 r0
  | _ => return (s, none)

/-- The loop `'reduce`, src/tet.rs:1229-1337: the index with which it returns from the function (with the goal popped),
or `tri_opps` afterwards; `none` also if there are `fuel` or more rounds. -/
def reduceLoop (tests : ProgressTests P V T)
    (child : Walker → ProgressState P V T → Option (ProgressState P V T × Option Nat)) (n : Nat)
    (edge : VId × VId) : Nat → List VId → ProgressState P V T →
    Option (ProgressState P V T × (Option Nat ⊕ List VId))
  | 0, _, _ => none
  | fuel + 1, opps, s =>
    if opps.length ≤ 3 then some (s, .inr opps)
    else do
      let (s, pass) ← s.ringPass child n edge opps []
      match pass with
      | .returned i => return (s, .inl (some i))
      | .done rest next reduced =>
        if reduced = false ∧ opps.length = next.length then
          let v ← next.head?
          let w ← (← s.mesh.walkerFromTri n (edge.1, edge.2, v))
          let ring ← s.mesh.edgeRing n w
          if ring.length = 3 then reduceLoop tests child n edge fuel (next ++ rest) s
          else
            let (s, r) ← s.lastTry tests ring
            return (s.popGoal, .inl r)
        else reduceLoop tests child n edge fuel (next ++ rest) s

/-- The triangles at a concave edge, src/tet.rs:1352-1376. -/
def concave (child : Walker → ProgressState P V T → Option (ProgressState P V T × Option Nat)) (edge : VId × VId) :
    List VId → ProgressState P V T → Option (ProgressState P V T × Option Nat)
  | [], s => some (s.popGoal, none)
  | v :: vs, s => do
    let w ← s.mesh.ringWalker edge v
    let (s, index) ← s.tryTri child edge w
    match index with
    | some i => return (s.popGoal, some i)
    | none => concave child edge vs s

/-- What remains when there are three triangles, src/tet.rs:1338-1419. -/
def finish32 (tests : ProgressTests P V T)
    (child : Walker → ProgressState P V T → Option (ProgressState P V T × Option Nat)) (edge : VId × VId)
    (opps : List VId) (s : ProgressState P V T) : Option (ProgressState P V T × Option Nat) := do
  if opps.length ≠ 3 then none
  else
    let m := s.mesh
    let last ← opps.head?
    let walk0 ← m.ringWalker edge last
    let walk1 ← m.toAdj walk0.twin
    let walk2 ← m.toAdj walk1.twin
    let (v0, v1) ← m.oppEdge walk0
    let v2 ← m.fourth walk1
    if !tests.pos m (v0, v1, edge.1, v2) || !tests.pos m (v0, v1, v2, edge.2) then
      s.concave child edge [v0, v1, v2]
    else
      let l0 ← m.triLocked walk0
      let l1 ← m.triLocked walk1
      let l2 ← m.triLocked walk2
      if s.notBad (v0, v1) && s.notBad (v1, v2) && s.notBad (v2, v0) && tests.triAddable m (v0, v1, v2) && !l0 &&
          !l1 && !l2 then
        let (m', _) ← m.flip32Unchecked walk0
        let goal ← s.goals.getLast?
        let index ← s.goals.findIdx? fun g => g ∈ [goal, .tri (sorted3 (v0, edge.1, edge.2)),
          .tri (sorted3 (v1, edge.1, edge.2)), .tri (sorted3 (v2, edge.1, edge.2))]
        return ({ s with mesh := m' }.popGoal, some index)
      else return (s.popGoal, none)

/-- `progress_by_removing_edge` for a depth that is not 0, src/tet.rs:1189-1419; `child` is
`progress_by_removing_tri` for the depth below. -/
def edgeStep (tests : ProgressTests P V T) (fuel : Nat)
    (child : Walker → ProgressState P V T → Option (ProgressState P V T × Option Nat)) (w : Walker)
    (s : ProgressState P V T) : Option (ProgressState P V T × Option Nat) := do
  let e ← s.mesh.undirEdge w
  let ue ← s.mesh.edges.get e
  if ue.locked then return (s, none)
  else
    let edge ← s.mesh.edge w
    let s := s.pushGoal (.edge (sorted2 edge))
    let ring ← s.mesh.edgeRing fuel w
    let opps ← ring.mapM s.mesh.third
    let (s, r) ← s.reduceLoop tests child fuel edge fuel opps.reverse
    match r with
    | .inl index => return (s, index)
    | .inr opps => s.finish32 tests child edge opps

/-- `progress_by_removing_tri` for a depth that is not 0, src/tet.rs:1429-1512; `child` is
`progress_by_removing_edge` for the depth below. -/
def triStep (tests : ProgressTests P V T)
    (child : Walker → ProgressState P V T → Option (ProgressState P V T × Option Nat)) (w : Walker)
    (s : ProgressState P V T) : Option (ProgressState P V T × Option Nat) := do
  let m := s.mesh
  if ← m.triLocked w then return (s, none)
  else
    let t ← m.tri w
    let s := s.pushGoal (.tri (sorted3 t))
    let adj ← m.toAdjAe w
    let (v0, v1, v2, v3) ← m.tet4 w
    let v4 ← m.fourth adj
    match [(v0, v1, w), (v1, v2, w.nfe), (v2, v0, w.pfe)].find? fun (va, vb, _) => !tests.pos m (va, vb, v4, v3) with
    | some (_, _, walker) =>
      let (s, index) ← child walker s
      return (s.popGoal, index)
    | none =>
      if s.notBad (v0, v3) && s.notBad (v0, v4) && s.notBad (v1, v3) && s.notBad (v1, v4) && s.notBad (v2, v3) &&
          s.notBad (v2, v4) && tests.triAddable m (v0, v3, v4) && tests.triAddable m (v1, v3, v4) &&
          tests.triAddable m (v2, v3, v4) && tests.edgeAddable m (v3, v4) then
        let (m', _) ← m.flip23Unchecked w
        let goal ← s.goals.getLast?
        let index ← s.goals.findIdx? fun g => g = goal
        return ({ s with mesh := m' }.popGoal, some index)
      else return (s.popGoal, none)

/-- `progress_by_removing_edge` and `progress_by_removing_tri` for every depth.  `fuel` bounds the loops without a
bound of their own. -/
def progress (tests : ProgressTests P V T) (fuel : Nat) : Nat →
    (Walker → ProgressState P V T → Option (ProgressState P V T × Option Nat)) ×
      (Walker → ProgressState P V T → Option (ProgressState P V T × Option Nat))
  | 0 => (fun _ s => some (s, none), fun _ s => some (s, none))
  | depth + 1 =>
    (edgeStep tests fuel (progress tests fuel depth).2, triStep tests (progress tests fuel depth).1)

end ProgressState

namespace Mesh
variable {P V T : Type}

/-- `progress_by_removing_edge`, src/tet.rs:1189-1419 -/
def progressEdge (m : Mesh P V T) (tests : ProgressTests P V T) (fuel depth : Nat) (w : Walker) (goals : List EdgeOrTri)
    (bad : List (VId × VId)) : Option (ProgressState P V T × Option Nat) :=
  (ProgressState.progress tests fuel depth).1 w ⟨m, goals, bad⟩

/-- `progress_by_removing_tri`, src/tet.rs:1429-1512 -/
def progressTri (m : Mesh P V T) (tests : ProgressTests P V T) (fuel depth : Nat) (w : Walker) (goals : List EdgeOrTri)
    (bad : List (VId × VId)) : Option (ProgressState P V T × Option Nat) :=
  (ProgressState.progress tests fuel depth).2 w ⟨m, goals, bad⟩

/-- `mesh.orient_3d(..) > 0.0` with the orientation test of src/tet/geo.rs:75-81 -/
def positive {K : Type} [Field K] [LinearOrder K] (m : Mesh (Pt K) V T) (q : V4) : Bool :=
  match m.orient q.1 q.2.1 q.2.2.1 q.2.2.2 with
  | none => false
  | some x => decide (0 < x)

end Mesh
end Tet
