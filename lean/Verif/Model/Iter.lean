import Verif.Model.Flips

/-!
# Model of the iterators (src/util.rs:72-120, src/tet.rs:486-500, 1722-1738, 1994-2100, 3713-3875)

An iterator is a state together with a function `next`; the outer `none` is a panic.
-/

namespace Tet

/-- The results of the first `n` calls of `next`, and the state afterwards. -/
def calls {σ α : Type} (next : σ → Option (Option α × σ)) : Nat → σ → Option (List (Option α) × σ)
  | 0, s => some ([], s)
  | n + 1, s => do
    let (a, s) ← next s
    let (as, s) ← calls next n s
    return (a :: as, s)

/-- `CircularListIter`, src/util.rs:73-82, without the functions, which do not change. -/
structure CircIter (K : Type) where
  start : K
  key : K
  finished : Bool

/-- `CircularListIter::new`, src/util.rs:84-95 -/
def CircIter.new {K : Type} (start : K) : CircIter K := ⟨start, start, false⟩

/-- `CircularListIter::next`, src/util.rs:97-118; the two functions may panic. -/
def CircIter.next {K V : Type} [DecidableEq K] (valueFn : K → Option V) (nextFn : K → Option K)
    (it : CircIter K) : Option (Option (K × V) × CircIter K) :=
  if it.finished then some (none, it)
  else do
    let value ← valueFn it.key
    let key ← nextFn it.key
    return (some (it.key, value), ⟨it.start, key, decide (key = it.start)⟩)

namespace Mesh
variable {P V T : Type}

/-- `WalkerEdgeRing::next`, src/tet.rs:488-497, 1722-1738; the iterator starts as
`CircIter.new w`. -/
def edgeRingNext (m : Mesh P V T) (it : CircIter Walker) : Option (Option Walker × CircIter Walker) := do
  let (r, it) ← it.next (fun _ => some ()) m.ringStep
  return (r.map (·.1), it)

/-! ## Tets at a vertex -/

/-- `WalkersFromVertex`, src/tet.rs:3713-3718.  The hash set is the list of its elements; the
head of `toSearch` is the last element of the source's vector. -/
structure WalkersState where
  visited : List TId
  toSearch : List Walker

/-- `WalkersFromVertex::next`, src/tet.rs:3720-3738; the recursion is the `while let`. -/
def walkersNextAux (m : Mesh P V T) (visited : List TId) :
    List Walker → Option (Option Walker × WalkersState)
  | [] => some (none, ⟨visited, []⟩)
  | walker :: rest =>
    if walker.tet ∈ visited then walkersNextAux m visited rest
    else do
      let a ← m.toAdj (walker.perm P1032)
      let b ← m.toAdj (walker.perm P2013)
      let c ← m.toAdj (walker.perm P3021)
      return (some walker, ⟨walker.tet :: visited, c :: b :: a :: rest⟩)

def walkersNext (m : Mesh P V T) (s : WalkersState) : Option (Option Walker × WalkersState) :=
  m.walkersNextAux s.visited s.toSearch

/-- `walkers_from_vertex`, src/tet.rs:2043-2051 -/
def walkersFromVertex (m : Mesh P V T) (v : VId) : Option WalkersState :=
  (m.walkerFromVertex v).map fun w => ⟨[], [w]⟩

/-- Set or clear `WALKERS_FROM_VERTEX`. -/
def flagTet (b : Bool) (t : Tet T) : Tet T := { t with flags := { t.flags with walkersFromVertex := b } }

/-- `WalkersFromVertexOpt`, src/tet.rs:3744-3749, with the mesh whose flags it changes; `visited`
is in the order of the source's vector. -/
structure WalkersOptState (P V T : Type) where
  mesh : Mesh P V T
  visited : List TId
  toSearch : List Walker

/-- `WalkersFromVertexOpt::next`, src/tet.rs:3751-3772 -/
def walkersOptNextAux (m : Mesh P V T) (visited : List TId) :
    List Walker → Option (Option Walker × WalkersOptState P V T)
  | [] => some (none, ⟨m, visited, []⟩)
  | walker :: rest => do
    let tet ← m.tets.get walker.tet
    if tet.flags.walkersFromVertex then walkersOptNextAux m visited rest
    else
      let m ← m.modTet walker.tet (flagTet true)
      let a ← m.toAdj (walker.perm P1032)
      let b ← m.toAdj (walker.perm P2013)
      let c ← m.toAdj (walker.perm P3021)
      return (some walker, ⟨m, visited ++ [walker.tet], c :: b :: a :: rest⟩)

def walkersOptNext (s : WalkersOptState P V T) : Option (Option Walker × WalkersOptState P V T) :=
  walkersOptNextAux s.mesh s.visited s.toSearch

/-- `walkers_from_vertex_opt`, src/tet.rs:2058-2067 -/
def walkersFromVertexOpt (m : Mesh P V T) (v : VId) : Option (WalkersOptState P V T) :=
  (m.walkerFromVertex v).map fun w => ⟨m, [], [w]⟩

/-- `WalkersFromVertexOpt::drop`, src/tet.rs:3774-3780; gives the mesh afterwards. -/
def walkersOptDrop (s : WalkersOptState P V T) : Option (Mesh P V T) :=
  s.visited.foldlM (fun m k => m.modTet k (flagTet false)) s.mesh

/-! ## Edges at a vertex -/

/-- `VertexTargetWalkers`, src/tet.rs:3788-3793 -/
structure TargetsState where
  visited : List VId
  toSearch : List Walker

/-- The inner `while`, src/tet.rs:3808-3814.  `fuel` bounds the number of rounds; `none` if it
does not suffice. -/
def targetLoop (m : Mesh P V T) (start : Walker) : Nat → Walker → List Walker → Option (List Walker)
  | 0, _, _ => none
  | fuel + 1, adj, toSearch => do
    let next ← m.toAdj (adj.perm P3021)
    if next ≠ start then targetLoop m start fuel next (adj :: toSearch)
    else return adj :: toSearch

/-- `VertexTargetWalkers::next`, src/tet.rs:3795-3820 -/
def targetsNextAux (m : Mesh P V T) (fuel : Nat) (visited : List VId) :
    List Walker → Option (Option Walker × TargetsState)
  | [] => some (none, ⟨visited, []⟩)
  | walker :: rest => do
    let target ← m.second walker
    if target ∈ visited then targetsNextAux m fuel visited rest
    else
      let adj ← m.toAdj walker
      let toSearch ← m.targetLoop adj.nfe fuel adj.nfe rest
      return (some walker, ⟨target :: visited, toSearch⟩)

def targetsNext (m : Mesh P V T) (fuel : Nat) (s : TargetsState) :
    Option (Option Walker × TargetsState) :=
  m.targetsNextAux fuel s.visited s.toSearch

/-- `vertex_target_walkers`, src/tet.rs:2083-2089 -/
def vertexTargetWalkers (m : Mesh P V T) (v : VId) : Option TargetsState :=
  (m.walkerFromVertex v).map fun w => ⟨[], [w]⟩

/-- `VertexTargets::next`, src/tet.rs:3859-3867 -/
def vertexTargetsNext (m : Mesh P V T) (fuel : Nat) (s : TargetsState) :
    Option (Option VId × TargetsState) := do
  let (r, s) ← m.targetsNext fuel s
  match r with
  | none => return (none, s)
  | some w =>
    let v ← m.second w
    return (some v, s)

/-- `vertex_flags(v).intersects(VERTEX_TARGETS)`, src/tet.rs:1910-1918 -/
def targetFlag (m : Mesh P V T) (v : VId) : Option Bool :=
  if v = GHOST then some m.ghostFlags.targets else (m.vertices.get v).map (·.flags.targets)

/-- Set or clear `VERTEX_TARGETS`. -/
def setTargetFlag (m : Mesh P V T) (v : VId) (b : Bool) : Option (Mesh P V T) :=
  if v = GHOST then some { m with ghostFlags := { m.ghostFlags with targets := b } }
  else if (m.vertices.get v).isSome then
    some { m with vertices := m.vertices.modify v fun x => { x with flags := { x.flags with targets := b } } }
  else none

/-- `VertexTargetWalkersOpt`, src/tet.rs:3822-3827 -/
structure TargetsOptState (P V T : Type) where
  mesh : Mesh P V T
  visited : List VId
  toSearch : List Walker

/-- `VertexTargetWalkersOpt::next`, src/tet.rs:3829-3848 -/
def targetsOptNextAux (m : Mesh P V T) (fuel : Nat) (visited : List VId) :
    List Walker → Option (Option Walker × TargetsOptState P V T)
  | [] => some (none, ⟨m, visited, []⟩)
  | walker :: rest => do
    let target ← m.second walker
    if ← m.targetFlag target then targetsOptNextAux m fuel visited rest
    else
      let m ← m.setTargetFlag target true
      let adj ← m.toAdj walker
      let toSearch ← m.targetLoop adj.nfe fuel adj.nfe rest
      return (some walker, ⟨m, visited ++ [target], toSearch⟩)

def targetsOptNext (fuel : Nat) (s : TargetsOptState P V T) :
    Option (Option Walker × TargetsOptState P V T) :=
  targetsOptNextAux s.mesh fuel s.visited s.toSearch

/-- `vertex_target_walkers_opt`, src/tet.rs:2095-2104 -/
def vertexTargetWalkersOpt (m : Mesh P V T) (v : VId) : Option (TargetsOptState P V T) :=
  (m.walkerFromVertex v).map fun w => ⟨m, [], [w]⟩

/-- `VertexTargetWalkersOpt::drop`, src/tet.rs:3850-3857 -/
def targetsOptDrop (s : TargetsOptState P V T) : Option (Mesh P V T) :=
  s.visited.foldlM (fun m v => m.setTargetFlag v false) s.mesh

/-! ## Searching

`find`, `flat_map(..).next()` stop at the first hit; `firstHit` does the same with at most `fuel`
calls of `next` (`none` if that does not suffice). -/

def firstHit {σ α β : Type} (next : σ → Option (Option α × σ)) (hit : α → Option (Option β)) :
    Nat → σ → Option (Option β)
  | 0, _ => none
  | fuel + 1, s => do
    let (r, s) ← next s
    match r with
    | none => return none
    | some a =>
      match ← hit a with
      | some b => return some b
      | none => firstHit next hit fuel s

/-- `walker_from_edge`, src/tet.rs:2000-2003 -/
def walkerFromEdge (m : Mesh P V T) (fuel : Nat) (edge : VId × VId) : Option (Option Walker) := do
  let s ← m.vertexTargetWalkers edge.1
  firstHit (m.targetsNext fuel)
    (fun w => do
      let second ← m.second w
      return if second = edge.2 then some w else none) fuel s

/-- `to_edge_assuming_tri`, src/tet.rs:662-672: `position(..).unwrap()` and `unreachable!()` are
`none`. -/
def toEdgeAssumingTri (m : Mesh P V T) (w : Walker) (edge : VId × VId) : Option Walker := do
  let (a, b, c, _) ← m.tet4 w
  if a = edge.1 then return w
  else if b = edge.1 then return w.nfe
  else if c = edge.1 then return w.pfe
  else none

/-- `walker_from_tri`, src/tet.rs:2007-2029 -/
def walkerFromTri (m : Mesh P V T) (fuel : Nat) (tri : V3) : Option (Option Walker) :=
  if m.trackTriMap then
    match m.triMap (triKey tri) with
    | none => some none
    | some w => (m.toEdgeAssumingTri w (tri.1, tri.2.1)).map some
  else do
    let s ← m.walkersFromVertex tri.1
    firstHit m.walkersNext
      (fun w => do
        let t0 ← m.tri w
        if t0 = tri then return some w
        else
          let t1 ← m.tri w.nve
          if t1 = tri then return some w.nve
          else
            let t2 ← m.tri w.pve
            if t2 = tri then return some w.pve else return none) fuel s

/-- `walker_from_tet`, src/tet.rs:2033-2035 -/
def walkerFromTet (m : Mesh P V T) (fuel : Nat) (tet : V4) : Option (Option Walker) := do
  let r ← m.walkerFromTri fuel (tet.1, tet.2.1, tet.2.2.1)
  match r with
  | none => return none
  | some w =>
    let d ← m.fourth w
    return if d = tet.2.2.2 then some w else none

end Mesh
end Tet
