import Verif.Model.IdMap
import Mathlib.Data.Fin.VecNotation

/-!
# Model of vertex keys and of the walker edge codes (src/tet.rs:38-100, 300-670)
-/

namespace Tet

/-! Vertex, tet and undirected edge ids (src/lib.rs:18-60) are natural numbers; the names
are macros so that arithmetic tactics see plain `Nat`. -/
macro "VId" : term => `(Nat)
macro "TId" : term => `(Nat)
macro "EId" : term => `(Nat)

/-- `TetMesh::GHOST`, the invalid vertex id (src/tet.rs:1760, src/lib.rs:42-44). -/
def GHOST : VId := idMax

/-- A triple of vertex ids, `[VertexId; 3]`. -/
abbrev V3 := VId × VId × VId
/-- A quadruple of vertex ids, `[VertexId; 4]`. -/
abbrev V4 := VId × VId × VId × VId

/-- src/tet.rs:39-45 -/
def sorted2 (e : VId × VId) : VId × VId := if e.1 > e.2 then (e.2, e.1) else e

/-- src/tet.rs:47-58 -/
def sorted3 : V3 → V3 := fun (a, b, c) =>
  let (a, b) := if a > b then (b, a) else (a, b)
  let (b, c) := if b > c then (c, b) else (b, c)
  let (a, b) := if a > b then (b, a) else (a, b)
  (a, b, c)

/-- src/tet.rs:60-69: `swap(0,1); swap(1,2)` and `swap(1,2); swap(0,1)`. -/
def evenSorted3 : V3 → V3 := fun (a, b, c) =>
  if b < a ∧ b < c then (b, c, a)
  else if c < a ∧ c < b then (c, a, b)
  else (a, b, c)

/-- src/tet.rs:71-84 -/
def evenSorted4 : V4 → V4 := fun (a, b, c, d) =>
  if d < a ∧ d < b ∧ d < c then
    -- swap(0,3); swap(1,2)
    let (x, y, z) := evenSorted3 (c, b, a)
    (d, x, y, z)
  else
    let (a, b, c) := evenSorted3 (a, b, c)
    let (x, y, z) := evenSorted3 (b, c, d)
    (a, x, y, z)

/-- `TriVertices::new`, src/tet.rs:88-94 -/
abbrev triKey (t : V3) : V3 := evenSorted3 t

/-! ## Edge codes -/

/-- The `edge` field of `TetWalker`, documented to be in `0..12` (src/tet.rs:401-407). -/
abbrev Code := Fin 12

/-- Which stored vertex is the first one, src/tet.rs:429-434 -/
def firstIdx : Code → Fin 4 := ![3, 2, 1, 0, 2, 3, 0, 1, 1, 0, 3, 2]
/-- src/tet.rs:437-442 -/
def secondIdx : Code → Fin 4 := ![2, 3, 0, 1, 1, 0, 3, 2, 3, 2, 1, 0]
/-- src/tet.rs:445-450 -/
def thirdIdx : Code → Fin 4 := ![1, 0, 3, 2, 3, 2, 1, 0, 2, 3, 0, 1]
/-- src/tet.rs:453-455; also the index of the current triangle (`edge % 4`). -/
def face (e : Code) : Fin 4 := ⟨e.val % 4, Nat.mod_lt _ (by decide)⟩

/-- src/tet.rs:505-507 -/
def undirIdx : Code → Fin 6 := ![0, 0, 1, 1, 2, 3, 3, 2, 4, 5, 4, 5]

/-- src/tet.rs:514-524 -/
def toUndirEdge : Fin 6 → Code := ![0, 3, 7, 5, 8, 11]

/-- src/tet.rs:537-544 -/
def nfe (e : Code) : Code := e + 4
/-- src/tet.rs:546-553 -/
def pfe (e : Code) : Code := e + 8
/-- src/tet.rs:555-564 -/
def nve : Code → Code := ![10, 11, 8, 9, 1, 0, 3, 2, 7, 6, 5, 4]
/-- src/tet.rs:566-575 -/
def pve : Code → Code := ![5, 4, 7, 6, 11, 10, 9, 8, 2, 3, 0, 1]
/-- src/tet.rs:578-583 -/
def twin : Code → Code := ![1, 0, 3, 2, 7, 6, 5, 4, 10, 11, 8, 9]
/-- src/tet.rs:586-591 -/
def opp : Code → Code := ![2, 3, 0, 1, 5, 4, 7, 6, 11, 10, 9, 8]

/-- `edge / 4` in `to_twin_tri`, src/tet.rs:620 -/
def div4 (e : Code) : Fin 3 := ⟨e.val / 4, by have := e.isLt; omega⟩

/-- `to_canon_tri`, src/tet.rs:653-656: `edge %= 4` -/
def canonTri (e : Code) : Code := ⟨e.val % 4, by have := e.isLt; omega⟩

/-- The table `perms`, src/tet.rs:317-330; also the meaning of the variants of
`Permutation`, src/tet.rs:364-377 (the variant `_abcd` has the row `[a,b,c,d]`). -/
def perms : Code → Fin 4 → Fin 4 :=
  ![![3, 2, 1, 0], ![2, 3, 0, 1], ![1, 0, 3, 2], ![0, 1, 2, 3],
    ![2, 1, 3, 0], ![3, 0, 2, 1], ![0, 3, 1, 2], ![1, 2, 0, 3],
    ![1, 3, 2, 0], ![0, 2, 3, 1], ![3, 1, 0, 2], ![2, 0, 1, 3]]

/-- `Permutation`, src/tet.rs:363-377: the discriminants `perm as usize`. -/
abbrev Perm := Code
def P3210 : Perm := 0
def P2301 : Perm := 1
def P1032 : Perm := 2
def P0123 : Perm := 3
def P2130 : Perm := 4
def P3021 : Perm := 5
def P0312 : Perm := 6
def P1203 : Perm := 7
def P1320 : Perm := 8
def P0231 : Perm := 9
def P3102 : Perm := 10
def P2013 : Perm := 11

/-- The inverse permutation computed in src/tet.rs:337-343. -/
def invPerm (p : Fin 4 → Fin 4) : Fin 4 → Fin 4 := fun i =>
  if p 3 = i then 3 else if p 2 = i then 2 else if p 1 = i then 1 else 0

/-- The last `new` with `edge == [perms[new][0], perms[new][1]]`, src/tet.rs:345-352. -/
def findCode (a b : Fin 4) : Code :=
  (List.finRange 12).foldl
    (fun acc new => if a = perms new 0 ∧ b = perms new 1 then new else acc) 0

/-- `PERMUTATION_FWD`, src/tet.rs:315-361, 412 -/
def permFwd (p i : Code) : Code :=
  findCode (perms p (perms i 0)) (perms p (perms i 1))

/-- `PERMUTATION_INV`, src/tet.rs:315-361, 416 -/
def permInv (p i : Code) : Code :=
  findCode (invPerm (perms p) (perms i 0)) (invPerm (perms p) (perms i 1))

/-- `to_perm`, src/tet.rs:607-613 -/
def toPerm (e : Code) (p : Perm) : Code := permFwd e p

/-- src/tet.rs:400-407 -/
structure Walker where
  tet : TId
  edge : Code
deriving DecidableEq, Repr

namespace Walker
/-- The same-tet moves of `TetWalker` on walkers (src/tet.rs:537-613, 647-661). -/
def nfe (w : Walker) : Walker := ⟨w.tet, Tet.nfe w.edge⟩
def pfe (w : Walker) : Walker := ⟨w.tet, Tet.pfe w.edge⟩
def nve (w : Walker) : Walker := ⟨w.tet, Tet.nve w.edge⟩
def pve (w : Walker) : Walker := ⟨w.tet, Tet.pve w.edge⟩
def twin (w : Walker) : Walker := ⟨w.tet, Tet.twin w.edge⟩
def opp (w : Walker) : Walker := ⟨w.tet, Tet.opp w.edge⟩
def perm (w : Walker) (p : Perm) : Walker := ⟨w.tet, Tet.toPerm w.edge p⟩
def canonTet (w : Walker) : Walker := ⟨w.tet, 3⟩
def canonTri (w : Walker) : Walker := ⟨w.tet, Tet.canonTri w.edge⟩
def toEdge (w : Walker) (e : Code) : Walker := ⟨w.tet, e⟩
end Walker

end Tet
