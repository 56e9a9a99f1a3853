import Verif.Model.Flips
import Mathlib.Data.List.Sort

/-!
# Model of `TetMesh::new` and `TetMesh::with_ids` (src/tet.rs:1760-1878)

The orientation predicate `sim::orient_3d` of the `simplicity` crate and the centroid are
parameters.
-/

namespace Tet
variable {P V T : Type}

/-- A mesh without vertices and tets, src/tet.rs:1774-1784, 2357-2367.  `center` is NAN there. -/
def Mesh.blank (center : P) (defaultTet : T) : Mesh P V T where
  vertices := IdMap.empty
  ghostFlags := {}
  edges := IdMap.empty
  tets := IdMap.empty
  triMap := fun _ => none
  trackTriMap := false
  center := center
  defaultTet := defaultTet

/-- `tw`, src/tet.rs:1810 -/
def tw (id : TId) (e : Code) : Walker := ⟨id, e⟩

/-- The vertices of the five tets as indexes into `vi`, src/tet.rs:1845-1851 -/
def newVertices : Fin 5 → Fin 4 → Fin 5 :=
  ![![0, 1, 2, 3], ![1, 2, 3, 4], ![0, 3, 2, 4], ![3, 0, 1, 4], ![2, 1, 0, 4]]

/-- The edges as pairs of indexes into `vi`, src/tet.rs:1827-1838 -/
def newEdges : Fin 10 → Fin 5 × Fin 5 :=
  ![(0, 1), (0, 2), (0, 3), (1, 2), (1, 3), (2, 3), (0, 4), (1, 4), (2, 4), (3, 4)]

/-- src/tet.rs:1853-1859, as indexes into `ei` -/
def newTetEdges : Fin 5 → Fin 6 → Fin 10 :=
  ![![5, 0, 3, 2, 4, 1], ![9, 3, 5, 7, 8, 4], ![8, 2, 5, 6, 9, 1], ![7, 2, 0, 9, 6, 4],
    ![6, 3, 0, 8, 7, 1]]

/-- src/tet.rs:1861-1867 -/
def newOpps : Fin 5 → Fin 4 → Fin 5 × Code :=
  ![![(1, 7), (2, 7), (3, 7), (4, 7)], ![(2, 8), (3, 5), (4, 2), (0, 4)],
    ![(1, 8), (4, 5), (3, 2), (0, 5)], ![(4, 8), (1, 5), (2, 2), (0, 6)],
    ![(3, 8), (2, 5), (1, 2), (0, 7)]]

/-- The vertex ids `vi`, src/tet.rs:1818-1824 -/
def newVi (swap : Bool) (v0 v1 v2 v3 : VId) : Fin 5 → VId :=
  ![v0, v1, if swap then v3 else v2, if swap then v2 else v3, GHOST]

/-- The tets given the edge ids. -/
def newTet (vi : Fin 5 → VId) (ei : Fin 10 → EId) (value : T) (i : Fin 5) : Tet T :=
  Tet.new (fun j => vi (newVertices i j)) (fun f => tw (newOpps i f).1 (newOpps i f).2)
    (fun s => ei (newTetEdges i s)) value

/-- `with_ids`, src/tet.rs:1800-1878 -/
def Mesh.withIds (orient : P → P → P → P → Bool) (m : Mesh P V T) (vs : List (VId × P × V))
    (defaultTet : T) : Option (Mesh P V T) :=
  -- vertices.sort_by_key(|(id, _, _)| *id)
  match vs.insertionSort (fun a b => a.1 ≤ b.1) with
  | [a, b, c, d] => do
    let swap := !orient a.2.1 b.2.1 c.2.1 d.2.1
    let vertices ← m.vertices.extendPairs [
      (a.1, Vertex.new (tw 0 3) a.2.1 a.2.2), (b.1, Vertex.new (tw 0 2) b.2.1 b.2.2),
      (c.1, Vertex.new (tw 0 (if swap then 0 else 1)) c.2.1 c.2.2),
      (d.1, Vertex.new (tw 0 (if swap then 1 else 0)) d.2.1 d.2.2)]
    let vi := newVi swap a.1 b.1 c.1 d.1
    let (edges, ei) ← m.edges.extendValues
      ((List.finRange 10).map fun i => UEdge.new (vi (newEdges i).1, vi (newEdges i).2))
    let (tets, _) ← m.tets.extendValues
      ((List.finRange 5).map fun i => newTet vi (fun k => ei[k.val]!) defaultTet i)
    return { m with vertices := vertices, edges := edges, tets := tets }
  | _ => none

/-- The positions of the four vertices of a tet; `none` if one is the ghost vertex. -/
def Mesh.tetPositions (m : Mesh P V T) (k : TId) : Option (P × P × P × P) := do
  let t ← m.tets.get k
  let a ← m.vertices.get (t.vertices 0)
  let b ← m.vertices.get (t.vertices 1)
  let c ← m.vertices.get (t.vertices 2)
  let d ← m.vertices.get (t.vertices 3)
  return (a.position, b.position, c.position, d.position)

/-- `TetMesh::new`, src/tet.rs:1765-1798; `nan` is the point with three NAN coordinates. -/
def Mesh.new (orient : P → P → P → P → Bool) (centroid : P × P × P × P → P) (nan : P)
    (v0 v1 v2 v3 : P × V) (defaultTet : T) : Option (Mesh P V T) := do
  let m ← (Mesh.blank nan defaultTet : Mesh P V T).withIds orient
    [(0, v0.1, v0.2), (1, v1.1, v1.2), (2, v2.1, v2.2), (3, v3.1, v3.2)] defaultTet
  let ps ← m.tetPositions 0
  return { m with center := centroid ps }

end Tet
