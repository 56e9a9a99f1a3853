import Verif.Model.Iter

/-!
# Model of `flip_quality` (src/tet.rs:2549-2615)
-/

namespace Tet

/-- `EdgeOrTri`, src/tet.rs:276-281 -/
inductive EdgeOrTri where
  | edge (e : VId × VId)
  | tri (t : V3)
deriving DecidableEq, Repr

namespace Mesh
variable {P V T : Type}

/-- The elements to look at first, src/tet.rs:2550-2559 -/
def qualityQueue (m : Mesh P V T) : Option (List EdgeOrTri) := do
  let tris ← (m.tets.keys.flatMap fun k => [⟨k, 0⟩, ⟨k, 1⟩, ⟨k, 2⟩, ⟨k, 3⟩]).mapM m.tri
  return m.edges.values.map (fun e => .edge (sorted2 e.vertices)) ++
    (tris.filter fun t => evenSorted3 t = sorted3 t).map .tri

/-- Where to look after a 3-to-2 flip, src/tet.rs:2569-2582 -/
def after32 (m : Mesh P V T) : List Walker → Option (List EdgeOrTri)
  | [w0, w1] => do
    let tris ← [w0, w1, w0.nve, w1.nve, w0.pve, w1.pve].mapM m.tri
    let edges ← [w0, w1, w0.nve, w1.nve, w0.pve, w1.pve].mapM m.edge
    return tris.map (fun t => .tri (sorted3 t)) ++ edges.map fun e => .edge (sorted2 e)
  | _ => none

/-- Where to look after a 2-to-3 flip, src/tet.rs:2595-2605 -/
def after23 (m : Mesh P V T) : List Walker → Option (List EdgeOrTri)
  | [w0, w1, w2] => do
    let tris ← [w0, w1, w2, w0.twin, w1.twin, w2.twin].mapM m.tri
    let edges ← [w0, w1, w2].mapM m.edge
    return tris.map (fun t => .tri (sorted3 t)) ++ edges.map fun e => .edge (sorted2 e)
  | _ => none

/-- `if flip_set.insert(x) { to_flip.push_back(x); }` for the listed elements, src/tet.rs:2583-2585.  The hash set
is a list of its elements. -/
def enqueue (queue set : List EdgeOrTri) (l : List EdgeOrTri) : List EdgeOrTri × List EdgeOrTri :=
  l.foldl (fun (queue, set) x => if x ∈ set then (queue, set) else (queue ++ [x], x :: set)) (queue, set)

/-- One round of the loop, src/tet.rs:2565-2613: tries to flip the element; gives the elements to look at. -/
def qualityStep {K : Type} [LinearOrder K] (quality : Mesh P V T → V4 → K) (fuel : Nat) (m : Mesh P V T) :
    EdgeOrTri → Option (Mesh P V T × List EdgeOrTri)
  | .edge e => do
    match ← m.walkerFromEdge fuel e with
    | none => return (m, [])
    | some w =>
      let (m, r) ← m.flip32Quality quality w
      match r with
      | none => return (m, [])
      | some ws =>
        let l ← m.after32 ws
        return (m, l)
  | .tri t =>
    match m.triMap t with
    | none => return (m, [])
    | some w => do
      let (m, r) ← m.flip23Quality quality w
      match r with
      | none => return (m, [])
      | some ws =>
        let l ← m.after23 ws
        return (m, l)

/-- The loop of `flip_quality`, src/tet.rs:2562-2614; `none` also if there are more than `fuel` rounds. -/
def qualityLoop {K : Type} [LinearOrder K] (quality : Mesh P V T → V4 → K) : Nat → Mesh P V T → List EdgeOrTri →
    List EdgeOrTri → Option (Mesh P V T)
  | 0, _, _, _ => none
  | _ + 1, m, [], _ => some m
  | fuel + 1, m, x :: queue, set => do
    let (m, l) ← m.qualityStep quality fuel x
    let (queue, set) := enqueue queue (set.filter (· ≠ x)) l
    qualityLoop quality fuel m queue set

/-- `flip_quality`, src/tet.rs:2549-2615 -/
def flipQuality {K : Type} [LinearOrder K] (quality : Mesh P V T → V4 → K) (fuel : Nat) (m : Mesh P V T) :
    Option (Mesh P V T) := do
  let queue ← m.qualityQueue
  qualityLoop quality fuel m queue queue

end Mesh
end Tet
