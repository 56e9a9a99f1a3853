import Mathlib.Data.List.Dedup
import Verif.Model.Flips

/-!
# Model of `assert_integrity` (src/tet.rs:3537-3686)

The result is whether no assertion fails.
-/

namespace Tet.Mesh
variable {P V T : Type}

/-- The invariants of one vertex, src/tet.rs:3541-3556 -/
def vertexOk (m : Mesh P V T) (id : VId) : Bool :=
  (m.vertices.get id).any fun x => decide (x.tet.tet ≠ idMax) && decide (m.first x.tet = some id)

/-- The invariants of one edge, src/tet.rs:3559-3571 -/
def edgeOk (ue : UEdge) : Bool := decide (ue.vertices.1 ≠ ue.vertices.2) && decide (ue.vertices.1 < ue.vertices.2)

/-- No duplicate edges and no edges without a tet, src/tet.rs:3572-3601 -/
def edgeSetOk (m : Mesh P V T) : Bool :=
  decide (m.numEdges = some ((m.edges.values.map fun ue =>
    (min ue.vertices.1 ue.vertices.2, max ue.vertices.1 ue.vertices.2)).dedup.length)) &&
  m.edges.keys.all fun e => m.tets.values.any fun t => (List.finRange 6).any fun i => decide (t.edges i = e)

/-- The entries of the triangle index, src/tet.rs:3603-3616; `entries` lists the keys of the hash map. -/
def triMapOk (m : Mesh P V T) (entries : List V3) : Bool :=
  !m.trackTriMap || entries.all fun s => (m.triMap s).any fun w => (m.tri w).any fun t => decide (triKey t = s)

/-- Both sides of a triangle agree on the lock, src/tet.rs:3646-3653 -/
def lockOk (m : Mesh P V T) (w : Walker) : Bool :=
  (m.toAdjAe w).any fun adj => (m.triLocked w).any fun l => decide (m.triLocked adj = some l)

/-- The checks for one walker, src/tet.rs:3655-3681 -/
def walkerOk (m : Mesh P V T) (w : Walker) : Bool := ((do
  let vi ← m.tet4 w
  let opp ← m.toAdjAe w
  let fourth ← m.fourth opp
  let vs := (vi.2.1, vi.1, vi.2.2.1, fourth)
  let adj ← m.toAdj w
  let avs ← m.tet4 adj
  let back ← m.toAdj adj
  let bvs ← m.tet4 back
  let e ← m.undirEdge w
  let ue ← m.edges.get e
  let tri ← m.tri w
  return decide (avs = vs) && decide (bvs = vi) &&
    decide ((min vs.1 vs.2.1, max vs.1 vs.2.1) =
      (min ue.vertices.1 ue.vertices.2, max ue.vertices.1 ue.vertices.2)) &&
    (!(decide (w.edge.val < 4) && m.trackTriMap) || (m.triMap (triKey tri)).isSome) : Option Bool)).getD false

/-- The invariants of one tet, src/tet.rs:3623-3683.  `orient` is `None` without the test of the
orientation. -/
def tetOk (m : Mesh P V T) (orient : Option (V4 → Bool)) (id : TId) : Bool :=
  (m.tets.get id).any fun t =>
    decide ([t.vertices 0, t.vertices 1, t.vertices 2, t.vertices 3].dedup.length = 4) &&
    orient.all (fun f => f (t.vertices 0, t.vertices 1, t.vertices 2, t.vertices 3)) &&
    ((List.finRange 12).filter (·.val < 4)).all (fun i => m.lockOk ⟨id, i⟩) &&
    (List.finRange 12).all fun i => m.walkerOk ⟨id, i⟩

/-- `assert_integrity`, src/tet.rs:3537-3686 -/
def assertIntegrity (m : Mesh P V T) (entries : List V3) (orient : Option (V4 → Bool)) : Bool :=
  m.vertices.keys.all m.vertexOk && m.edges.values.all edgeOk && m.edgeSetOk && m.triMapOk entries &&
    m.tets.keys.all (m.tetOk orient)

end Tet.Mesh
