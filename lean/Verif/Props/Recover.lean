import Verif.Props.Intersect

/-!
# C47, C48, C65, C66: recovering edges and triangles
-/

namespace Tet
open Spec
variable {P V T : Type} {tests : RecoverTests P V T}

/-! ## C47 -/

/-- C47: what `recover_and_lock_edge` gives, for any tests and searches. -/
theorem C47_outcome (hg : GoodSearch tests) {m : Mesh P V T} (h : RecoverReady tests.pos m) (edge : VId × VId) (depth : Nat) :
    ∃ r, Settles (fun fuel => m.recoverAndLockEdge tests fuel edge depth) r ∧ EdgeOutcome tests m edge r :=
  recoverAndLockEdge_does h hg edge depth

/-- C47: with the tests and searches of the program in exact arithmetic, it ends, panics only in the cases that
`EdgePanics` lists, does nothing but flips that add nothing that crosses the edge and, at the end, one lock. -/
theorem C47_exact {K : Type} [Field K] [LinearOrder K] [IsStrictOrderedRing K] (sim : VId → VId → VId → VId → Bool)
    (steps : Nat) {m : Mesh (Pt K) V T} (h : RecoverReady Mesh.positive m) (edge : VId × VId) (depth : Nat) :
    ∃ r, Settles (fun fuel => m.recoverAndLockEdge (Mesh.exactTests sim steps) fuel edge depth) r ∧
      EdgeOutcome (Mesh.exactTests sim steps) m edge r :=
  C47_outcome (C67_search sim steps) h edge depth

/-- C47: if it returns true, the edge is in the mesh and locked; the mesh is consistent and has the same vertices, and
what was locked still is. -/
theorem C47_true (hg : GoodSearch tests) {m m' : Mesh P V T} (h : RecoverReady tests.pos m) {edge : VId × VId} {depth : Nat}
    (hr : Settles (fun fuel => m.recoverAndLockEdge tests fuel edge depth) (some (m', true))) :
    LockedEdge m' edge.1 edge.2 ∧ HasEdge m' edge.1 edge.2 ∧ Consistent m' ∧ Oriented tests.pos m' ∧ SameVertices m m' ∧
      (∀ s, LockedTri m' s ↔ LockedTri m s) ∧
      ∀ a b, LockedEdge m' a b ↔ LockedEdge m a b ∨ (a, b) = edge ∨ (b, a) = edge := by
  obtain ⟨r, h1, h2⟩ := C47_outcome hg h edge depth
  cases h1.unique hr
  obtain ⟨l, m1, -, -, -, -, h4, h5⟩ := h2
  refine ⟨h5, ?_, h4.ready.consistent, h4.ready.oriented, h4.vertices, fun s => ⟨fun hs => ?_, h4.locks.triKept s⟩, fun a b =>
    ⟨fun hs => ?_, ?_⟩⟩
  · obtain ⟨e, ue, k1, k2, -⟩ := h5
    exact ⟨e, ue, k1, k2⟩
  · rcases h4.locks.tri s hs with h | ⟨t, ht, -⟩
    · exact h
    · cases ht
  · simpa using h4.locks.edge a b hs
  · rintro (hs | rfl | rfl)
    · exact h4.locks.edgeKept a b hs
    · exact h5
    · obtain ⟨e, ue, k1, k2, k3⟩ := h5
      exact ⟨e, ue, k1, by rw [k2, min_comm, max_comm], k3⟩

/-- C47: if it returns false, something that crossed the edge is still there; nothing but flips has happened, with all
locks as before. -/
theorem C47_false (hg : GoodSearch tests) {m m' : Mesh P V T} (h : RecoverReady tests.pos m) {edge : VId × VId} {depth : Nat}
    (hr : Settles (fun fuel => m.recoverAndLockEdge tests fuel edge depth) (some (m', false))) :
    Consistent m' ∧ SameVertices m m' ∧ SameLocks m m' ∧ ∃ l g, Settles (tests.edgeInters · m edge) (some l) ∧ g ∈ l ∧
      Present m' g := by
  obtain ⟨r, h1, h2⟩ := C47_outcome hg h edge depth
  cases h1.unique hr
  exact ⟨h2.2.2.1.ready.consistent, h2.2.2.1.vertices, h2.2.1, h2.2.2.2⟩

/-! ### Examples -/

/-- No mesh that can be reached is stuck. -/
theorem recover_never_of_states {pos0 : Mesh P V T → V4 → Bool} {m : Mesh P V T} (hm : ConsistentT m) (hg : GoodOrient pos0 m)
    (ho : Oriented pos0 m) {states : List (List V4)} {A : List V4} (hA : Shows m A) (hs : A ∈ states)
    {pos : V4 → Bool} (hpos : ∀ q, pos0 m q = true → pos q = true) (hok : okFlips pos states = true)
    (hl : ∀ A ∈ states, 12 * A.length < idMax) : ∀ m1, RecoverRun pos0 m m1 → ¬ Stuck pos0 m1 := by
  have key : ∀ m0 m1, RecoverRun pos0 m0 m1 → ConsistentT m0 → GoodOrient pos0 m0 → Oriented pos0 m0 →
      SameVertices m m0 → (∃ A ∈ states, Shows m0 A) → ¬ Stuck pos0 m1 := by
    intro m0 m1 hr
    induction hr with
    | refl m0 =>
      rintro hm0 - - hsv ⟨A, hs, hA⟩ (⟨old, new, ⟨taken, r, hf, ht⟩, hp⟩ | hroom)
      · exact (okFlips_at hok hm0 hA hs hf fun q hq =>
        hpos q ((hg.verts m0 hsv q).symm.trans (hp q hq))).1 ht
      · exact hroom (hA.room hm0 (hl A hs))
    | @flip m0 m1 m2 old new h1 h2 _ ih =>
      rintro hm0 hg0 ho0 hsv ⟨A, hs, hA⟩
      obtain ⟨k1, k2, k3, -⟩ := run_keeps (.flip h1 h2 (.refl m1)) hm0 hg0 ho0
      refine ih k1 (hg0.of_same k2) k3 (SameVertices.trans' hsv k2) ?_
      have hd := h1.done hm0
      obtain ⟨taken, ws, hf, -, -⟩ := h1
      obtain ⟨-, B, hB, hsame⟩ := okFlips_at hok hm0 hA hs hf fun q hq =>
        hpos q ((hg.verts _ hsv q).symm.trans (h2 q hq))
      exact ⟨B, hB, fun q => (hA.next hd.rep q).trans (sameTets_full hsame q)⟩
    | @lock m0 m1 m2 h1 _ ih =>
      rintro hm0 hg0 ho0 hsv ⟨A, hs, hA⟩
      obtain ⟨k1, k2, k3, -⟩ := run_keeps (.lock h1 (.refl m1)) hm0 hg0 ho0
      exact ih k1 (hg0.of_same k2) k3 (SameVertices.trans' hsv k2) ⟨A, hs, fun q => (h1.tets q).trans (hA q)⟩
  exact fun m1 hr => key m m1 hr hm hg ho ⟨fun _ => rfl, rfl, rfl, rfl⟩ ⟨A, hs, hA⟩

/-- `ratA` meets the hypotheses. -/
theorem ratA_recover : ∃ m, ratA = some m ∧ RecoverReady Mesh.positive m := by
  obtain ⟨m, h1, h2⟩ := ratA_ready
  exact ⟨m, h1, h2.consistent, h2.tracked, h2.orient, h2.oriented, recover_never_of_states (states := ratStates)
    h2.consistent.toT h2.orient h2.oriented (ratA_shows h1) (by simp [ratStates]) (ratA_all h1) rat_flips
    (by simp [ratStates, ratTets, idMax])⟩

/-- The tests of the program, with some tie-breaking. -/
def exRecover : RecoverTests (Pt ℚ) Nat Unit := Mesh.exactTests (fun _ _ _ _ => true) 20

/-- The edge from 0 to 4 replaces the triangle in its way. -/
example : ∃ m, ratA = some m ∧ RecoverReady exRecover.pos m ∧ GoodSearch exRecover ∧
    (m.recoverAndLockEdge exRecover 40 (0, 4) 1).map (fun r => (r.1.numTets, r.2)) = some (some 9, true) := by
  obtain ⟨m, h1, h2⟩ := ratA_recover
  exact ⟨m, h1, h2, C67_search _ _, of_map (f := fun m => (m.recoverAndLockEdge exRecover 40 (0, 4) 1).map
    (fun r => (r.1.numTets, r.2))) h1 (by decide +kernel)⟩

/-- `ratB`, which has been made with tests of the program. -/
theorem ratB_recover : ∃ m, ratB = some m ∧ RecoverReady Mesh.positive m := by
  obtain ⟨m, h1, h2⟩ := ratA_recover
  have h3 : ProgressReady exTests m := h2.progress
  have h4 : m.tri ⟨0, 8⟩ = some (1, 2, 3) := of_map (f := fun m => m.tri ⟨0, 8⟩) h1 (by decide +kernel)
  obtain ⟨N, m', r, h5, h6⟩ := C46_tri h3 (goodCall_nil m) h4 1
  have h7 : m.progressTri exTests 40 1 ⟨0, 8⟩ [] [] = m.progressTri exTests N 1 ⟨0, 8⟩ [] [] := rfl
  exact ⟨m', by rw [ratB, h1, Option.bind_some, h7, h5 N le_rfl]; rfl, h2.run (recoverRun_of h6.run)⟩

/-- The tets of `ratB`. -/
def ratBTets : List V4 :=
  [(2, 1, 0, 4), (4, 3, 2, GHOST), (0, 2, 3, GHOST), (2, 0, 1, GHOST), (3, 1, 0, GHOST), (1, 4, 2, GHOST), (1, 3, 4, GHOST),
    (1, 3, 0, 4), (3, 2, 0, 4)]

theorem ratB_shows {m : Mesh (Pt ℚ) Nat Unit} (h : ratB = some m) : Shows m ratBTets := by
  exact shows_of (of_map (f := fun m => m.tets.keys.filterMap fun k => (m.tets.get k).map fun t =>
    (t.vertices 0, t.vertices 1, t.vertices 2, t.vertices 3)) h (by decide +kernel))

/-! ### When a vertex is on the edge -/

theorem collectWalkers_mono {m : Mesh P V T} : ∀ {n k : Nat} {s : Mesh.WalkersState} {l : List Walker},
    m.collectWalkers n s = some l → n ≤ k → m.collectWalkers k s = some l
  | 0, _, _, _, h, _ => by cases h
  | n + 1, k, s, l, h, hk => by
    obtain ⟨j, rfl⟩ : ∃ j, k = j + 1 := ⟨k - 1, by omega⟩
    rw [Mesh.collectWalkers] at h ⊢
    obtain ⟨⟨r, s'⟩, h1, h⟩ := Option.bind_eq_some_iff.1 h
    rw [h1]
    cases r with
    | none => exact h
    | some w =>
      obtain ⟨ws, h2, h⟩ := Option.bind_eq_some_iff.1 h
      simp only [Option.bind_eq_bind, Option.bind_some, collectWalkers_mono h2 (by omega : n ≤ j)]
      exact h

theorem firstInter_mono {K : Type} [Field K] [LinearOrder K] {m : Mesh (Pt K) V T} {n k : Nat} {v0 v1 : VId}
    {r : Option (Walker × EdgeInter K)} (h : m.firstInter n v0 v1 = some r) (hk : n ≤ k) : m.firstInter k v0 v1 = some r := by
  obtain ⟨ws, h1, h⟩ := Option.bind_eq_some_iff.1 h
  obtain ⟨s, h2, h1⟩ := Option.bind_eq_some_iff.1 h1
  simp only [Mesh.firstInter, Mesh.walkersOf, h2, Option.bind_eq_bind, Option.bind_some, collectWalkers_mono h1 hk]
  exact h

/-- C47: the source says "No triangle intersects the edge, so the edge must exist now".  That is not so if nothing
crosses the edge because it runs into a vertex at first: then the edge does not exist, and the function panics at every
depth. -/
theorem C47_no_crossing {K : Type} [Field K] [LinearOrder K] [IsStrictOrderedRing K] (sim : VId → VId → VId → VId → Bool)
    (steps depth : Nat) {m : Mesh (Pt K) V T} (hm : Consistent m) {a b : VId} (hn : ¬ HasEdge m a b)
    {n : Nat} (h : m.firstInter n a b = some none) :
    ∃ N, ∀ fuel ≥ N, m.recoverAndLockEdge (Mesh.exactTests sim steps) fuel (a, b) depth = none := by
  obtain ⟨r, ⟨N, hN⟩, hr⟩ := walkerFromEdge_does hm (a, b)
  refine ⟨max N n, fun fuel hf => ?_⟩
  have h1 : m.edgeIntersections fuel steps a b = some [] := by
    simp only [Mesh.edgeIntersections, firstInter_mono h (le_trans (le_max_right _ _) hf), Option.bind_eq_bind, Option.bind_some]
    cases steps <;> rfl
  have h2 : r.bind (fun w => w) = none := by
    match r, hr with
    | none, _ => rfl
    | some none, _ => rfl
    | some (some w), hr =>
      obtain ⟨c, d, hd⟩ := edge_tet4 (show m.edge w = some (a, b) from hr)
      exact absurd (hm.toT.hasEdge_tet.2 ⟨c, d, w, hd⟩) hn
  have h3 := hN fuel (le_trans (le_max_left _ _) hf)
  simp only [Mesh.recoverAndLockEdge, Mesh.exactTests, h1, Option.map_some, List.map_nil, List.reverse_nil, Mesh.removeAll,
    Option.bind_eq_bind, Option.bind_some, if_true, h3]
  cases r with
  | none => rfl
  | some r =>
    cases r with
    | none => rfl
    | some w => cases h2

/-- Two tets, where vertex 1 is on the edge from 0 to 4. -/
def ratC : Option (Mesh (Pt ℚ) Nat Unit) := (rat5.bind fun m =>
  (m.vertices.insert (Vertex.new invalidWalker ⟨2, 0, 0⟩ 4)).map fun r => { m with vertices := r.1 }).bind fun m =>
  (m.flip14Unchecked (Mesh.walkerFromTetId 1) 4).map (·.1)

theorem ratC_ok : ∃ m, ratC = some m ∧ Consistent m := by
  obtain ⟨m, h1, h2, -⟩ := C14_new (fun a b c d => decide (0 < orient3d a b c d)) Pt.centroid4 (⟨0, 0, 0⟩ : Pt ℚ)
    (⟨0, 0, 0⟩, 0) (⟨1, 0, 0⟩, 1) (⟨0, 1, 0⟩, 2) (⟨0, 0, 1⟩, 3) ()
  have h1 : rat5 = some m := h1
  have h3 : (rat5.bind fun m => (m.vertices.insert (Vertex.new invalidWalker ⟨2, 0, 0⟩ 4)).map fun r =>
    { m with vertices := r.1 }).isSome = true := by decide +kernel
  obtain ⟨m', h3⟩ := Option.isSome_iff_exists.1 h3
  have h4 := h3
  rw [h1, Option.bind_some] at h4
  obtain ⟨⟨vs, id⟩, h5, h4⟩ := Option.map_eq_some_iff.1 h4
  have hm' : Consistent m' := by rw [← h4]; exact (h2.toT.addVertex h5).1.toSpec
  obtain ⟨m2, _, _, _, _, h6, h7, -⟩ := C18_flip14 hm' (k := 1) (v := 4)
    (of_map (f := fun m => m.tet4 (Mesh.walkerFromTetId 1)) (b := some (1, 3, 2, GHOST)) h3 (by decide +kernel))
    (fun h => by
      have := of_map (f := fun m => (m.vertices.get 4).isSome) (b := true) h3 (by decide +kernel)
      simp [h] at this)
    (first_of_check (of_map (f := fun m => noVertex m 4) h3 (by decide +kernel)))
    (of_map (f := fun m => m.numTets) (b := some 5) h3 (by decide +kernel))
    (of_map (f := fun m => m.numEdges) (b := some 10) h3 (by decide +kernel)) (by decide) (by decide)
  exact ⟨m2, by rw [ratC, h3, Option.bind_some, h6]; rfl, h7⟩

/-- C47: such a mesh, where all tets are positively oriented. -/
theorem C47_vertex_on_edge : ∃ m, ratC = some m ∧ Consistent m ∧ (∀ q, HasTet m q → m.positive q = true) ∧
    Solid m 0 ∧ Solid m 4 ∧ ∀ sim steps depth, ∃ N, ∀ fuel ≥ N,
      m.recoverAndLockEdge (Mesh.exactTests sim steps) fuel (0, 4) depth = none := by
  obtain ⟨m, h1, h2⟩ := ratC_ok
  have hS : Shows m ratTets := shows_of (of_map (f := fun m => m.tets.keys.filterMap fun k => (m.tets.get k).map fun t =>
    (t.vertices 0, t.vertices 1, t.vertices 2, t.vertices 3)) h1 (by decide +kernel))
  have hf : ∀ {q}, q ∈ full ratTets → Solid m q.1 ∨ q.1 = GHOST := fun {q} hq => by
    by_cases hg : q.1 = GHOST
    · exact .inr hg
    · obtain ⟨w, hw⟩ := (hS q).2 hq
      exact .inl ⟨⟨w, (tet4_parts hw).1⟩, hg⟩
  refine ⟨m, h1, h2, fun q hq => ?_, (hf (q := (0, 1, 3, 2)) (by decide +kernel)).resolve_right (by decide),
    (hf (q := (4, 3, 2, GHOST)) (by decide +kernel)).resolve_right (by decide), fun sim steps depth => ?_⟩
  · exact List.all_eq_true.1 (of_map (f := fun m => (full ratTets).all m.positive) (b := true) h1 (by decide +kernel)) q
      ((hS q).1 hq)
  · refine C47_no_crossing sim steps depth h2 (noEdge_of h2.toT hS (by decide +kernel)) (n := 40) ?_
    have := of_map (f := fun m => match m.firstInter 40 0 4 with | some none => true | _ => false) (b := true) h1 (by decide +kernel)
    revert this
    split
    · exact fun _ => by assumption
    · exact fun h => by cases h

/-! ### Without the index of triangles -/

/-- C47, C48: `recover_and_lock_edge`, `recover_and_lock_edges` and `recover_and_lock_tri` are public, but do not turn the
index of triangles on, and users cannot.  Removing an edge in a mesh without the index panics, at every depth, if the edge is
not locked and at most three triangles are at it. -/
theorem C47_untracked_panics {tests : ProgressTests P V T} {m : Mesh P V T} (hm : Consistent m) (ht : ∀ k, m.triMap k = none)
    {w : Walker} {a b p q r : VId} (hw : m.edge w = some (a, b)) (hl : ¬ LockedEdge m a b)
    (h3 : ∀ z, HasTri m (a, b, z) → z ∈ [p, q, r]) (depth : Nat) (goals : List EdgeOrTri) (bad : List (VId × VId)) :
    ∃ N, ∀ fuel ≥ N, m.progressEdge tests fuel (depth + 1) w goals bad = none := by
  obtain ⟨c, d, h0⟩ := edge_tet4 hw
  obtain ⟨l, opps, h1, -, h2, hn, -, h4⟩ := ring_of hm.toT h0
  have hlen : opps.length ≤ 3 := (List.subperm_of_subset hn fun z hz => h3 z ((h4 z).1 hz)).length_le
  obtain ⟨N, hN⟩ := Filter.eventually_atTop.1 h1
  obtain ⟨e, ue, k1, k2, k3⟩ := hm.edgePtr w a b hw
  have hue : ue.locked = false := by
    by_contra hc
    exact hl ⟨e, ue, k2, k3, by simpa using hc⟩
  refine ⟨max N 1, fun fuel hf => ?_⟩
  obtain ⟨fuel, rfl⟩ : ∃ k, fuel = k + 1 := ⟨fuel - 1, by have := le_max_right N 1; omega⟩
  have h5 := hN _ (le_trans (le_max_left _ _) hf)
  simp only [Mesh.progressEdge, ProgressState.progress, ProgressState.edgeStep, k1, k2, hue, hw, ProgressState.pushGoal, h5, h2,
    Option.bind_eq_bind, Option.bind_some, Bool.false_eq_true, if_false]
  rw [ProgressState.reduceLoop, if_pos (by simpa using hlen)]
  simp only [Option.bind_some, ProgressState.finish32]
  split
  · rfl
  · cases opps.reverse.head? <;> simp [Mesh.ringWalker, ht]

/-- `ratB` without the index of triangles meets the hypotheses, for the edge from 4 to 0. -/
example : ∃ m w, ratB = some m ∧ m.edge w = some (4, 0) ∧ Consistent { m with trackTriMap := false, triMap := fun _ => none } ∧
    (∀ z, HasTri m (4, 0, z) → z ∈ [1, 2, 3]) ∧ ¬ LockedEdge m 4 0 := by
  obtain ⟨m, h1, h2⟩ := ratB_recover
  have hc := h2.consistent
  obtain ⟨w, hw⟩ := (ratB_shows h1 (4, 0, 1, 2)).2 (by decide +kernel)
  refine ⟨m, w, h1, (tet4_parts hw).2.2.1, ?_, fun z hz => ?_, fun hl => ?_⟩
  · refine { hc with oneRing := (fun w w' e h h' => ?_), triMapSound := (fun h => by cases h), triMapComplete := (fun h => by cases h) }
    have h3 := hc.oneRing w w' e h h'
    clear h h'
    induction h3 with
    | refl => exact .refl _
    | step _ k ih => exact .step ih k
    | back _ k ih => exact .back ih k
  · obtain ⟨d, hd⟩ := hasTri_iff.1 hz
    have h3 := (ratB_shows h1 _).1 hd
    have h4 : (full ratBTets).all (fun t => !(Nat.beq t.1 4 && Nat.beq t.2.1 0) || decide (t.2.2.1 ∈ [1, 2, 3])) = true := by
      decide +kernel
    simpa using List.all_eq_true.1 h4 _ h3
  · obtain ⟨e, ue, k1, -, k3⟩ := hl
    have h4 := of_map (f := fun m => m.edges.keys.all fun k => (m.edges.get k).all fun e => !e.locked) (b := true) h1
      (by decide +kernel)
    have h5 := List.all_eq_true.1 h4 e (IdMap.mem_keys.2 (by simp [k1]))
    simp [k1, k3] at h5

/-! ## C48 -/

/-- C48: what `recover_and_lock_tri` gives, for any tests and searches. -/
theorem C48_outcome (hg : GoodSearch tests) {m : Mesh P V T} (h : RecoverReady tests.pos m) (t : V3) :
    ∃ r, Settles (fun fuel => m.recoverAndLockTri tests fuel t) r ∧ TriOutcome tests m t r :=
  recoverAndLockTri_does hg h t

/-- C48: with the tests and searches of the program in exact arithmetic. -/
theorem C48_exact {K : Type} [Field K] [LinearOrder K] [IsStrictOrderedRing K] (sim : VId → VId → VId → VId → Bool)
    (steps : Nat) {m : Mesh (Pt K) V T} (h : RecoverReady Mesh.positive m) (t : V3) :
    ∃ r, Settles (fun fuel => m.recoverAndLockTri (Mesh.exactTests sim steps) fuel t) r ∧
      TriOutcome (Mesh.exactTests sim steps) m t r :=
  C48_outcome (C67_search sim steps) h t

/-- C48: if it returns true, the triangle is in the mesh and locked on both sides, and its edges are locked; the mesh is
consistent and has the same vertices, and what was locked still is. -/
theorem C48_true (hg : GoodSearch tests) {m m' : Mesh P V T} (h : RecoverReady tests.pos m) {t : V3}
    (hr : Settles (fun fuel => m.recoverAndLockTri tests fuel t) (some (m', true))) :
    LockedTri m' t ∧ LockedTri m' (t.2.1, t.1, t.2.2) ∧ (∀ e ∈ triEdges t, LockedEdge m' e.1 e.2) ∧ Consistent m' ∧
      Oriented tests.pos m' ∧ SameVertices m m' ∧ (∀ s, LockedTri m s → LockedTri m' s) ∧
      (∀ s, LockedTri m' s → LockedTri m s ∨ SameThree s t) ∧ (∀ a b, LockedEdge m a b → LockedEdge m' a b) ∧
      ∀ a b, LockedEdge m' a b → LockedEdge m a b ∨ (a, b) ∈ triEdges t ∨ (b, a) ∈ triEdges t := by
  obtain ⟨r, h1, h2⟩ := C48_outcome hg h t
  cases h1.unique hr
  obtain ⟨h3, h4, h5, h6⟩ := h2
  exact ⟨h4, h5, h6, h3.ready.consistent, h3.ready.oriented, h3.vertices, h3.locks.triKept, fun s hs => by
    simpa using h3.locks.tri s hs, h3.locks.edgeKept, h3.locks.edge⟩

/-- C48: if it returns false, no triangle has been locked; the mesh is consistent and has the same vertices, and what was
locked still is.  Only edges of the triangle may have been locked. -/
theorem C48_false (hg : GoodSearch tests) {m m' : Mesh P V T} (h : RecoverReady tests.pos m) {t : V3}
    (hr : Settles (fun fuel => m.recoverAndLockTri tests fuel t) (some (m', false))) :
    Consistent m' ∧ Oriented tests.pos m' ∧ SameVertices m m' ∧ (∀ s, LockedTri m' s ↔ LockedTri m s) ∧
      (∀ a b, LockedEdge m a b → LockedEdge m' a b) ∧
      ∀ a b, LockedEdge m' a b → LockedEdge m a b ∨ (a, b) ∈ triEdges t ∨ (b, a) ∈ triEdges t := by
  obtain ⟨r, h1, h2⟩ := C48_outcome hg h t
  cases h1.unique hr
  obtain ⟨h3, -⟩ := h2
  exact ⟨h3.ready.consistent, h3.ready.oriented, h3.vertices, fun s => ⟨fun hs => by simpa using h3.locks.tri s hs,
    h3.locks.triKept s⟩, h3.locks.edgeKept, h3.locks.edge⟩

/-- All hypotheses are met; the edge from 4 to 0 is in the way of the triangle. -/
example : ∃ m, ratB = some m ∧ RecoverReady exRecover.pos m ∧ GoodSearch exRecover ∧ ¬ HasTri m (1, 2, 3) ∧
    exRecover.triInters 40 m (1, 2, 3) = some [(4, 0)] := by
  obtain ⟨m, h1, h2⟩ := ratB_recover
  refine ⟨m, h1, h2, C67_search _ _, fun h => ?_, of_map (f := fun m => exRecover.triInters 40 m (1, 2, 3)) h1 (by decide +kernel)⟩
  obtain ⟨d, hd⟩ := hasTri_iff.1 h
  have h3 := (ratB_shows h1 _).1 hd
  have h4 : (full ratBTets).all (fun t => !(Nat.beq t.1 1 && Nat.beq t.2.1 2 && Nat.beq t.2.2.1 3)) = true := by
    decide +kernel
  simpa using List.all_eq_true.1 h4 _ h3

/-! ## C65 -/

/-- C65: what `recover_and_lock_edges` gives, whatever the order of the set is. -/
theorem C65_outcome (hg : GoodSearch tests) {m : Mesh P V T} (h : RecoverReady tests.pos m)
    {order : List (VId × VId) → List (VId × VId)} (ho : ∀ l e, e ∈ order l ↔ e ∈ l) (plc : List (VId × VId)) :
    ∃ r, Settles (fun fuel => m.recoverAndLockEdges tests fuel order plc) r ∧ EdgesOutcome tests m (plc.map sorted2) r :=
  edges_does hg h ho plc

/-- C65: if there are no missing edges at the end, all edges of the PLC are in the mesh and locked. -/
theorem C65_none_missing (hg : GoodSearch tests) {m m' : Mesh P V T} (h : RecoverReady tests.pos m)
    {order : List (VId × VId) → List (VId × VId)} (ho : ∀ l e, e ∈ order l ↔ e ∈ l) {plc : List (VId × VId)}
    (hr : Settles (fun fuel => m.recoverAndLockEdges tests fuel order plc) (some (m', []))) :
    (∀ a b, (a, b) ∈ plc → LockedEdge m' a b) ∧ Consistent m' ∧ SameVertices m m' ∧
      ∀ a b, LockedEdge m' a b → LockedEdge m a b ∨ (a, b) ∈ plc ∨ (b, a) ∈ plc := by
  obtain ⟨r, h1, h2⟩ := C65_outcome hg h ho plc
  cases h1.unique hr
  obtain ⟨h3, -, h4⟩ := h2
  refine ⟨fun a b hab => ?_, h3.ready.consistent, h3.vertices, fun a b hab => ?_⟩
  · have h5 := (h4 _ (List.mem_map_of_mem (f := sorted2) hab)).resolve_left (by simp)
    obtain ⟨e, ue, k1, k2, k3⟩ := h5
    refine ⟨e, ue, k1, ?_, k3⟩
    rcases sorted2_cases a b with ⟨k, hle⟩ | ⟨k, hle⟩ <;> rw [k] at k2
    · exact k2
    · rw [k2, min_comm, max_comm]
  · refine (h3.locks.edge a b hab).imp id fun h5 => ?_
    have key : ∀ {a b}, (a, b) ∈ plc.map sorted2 → (a, b) ∈ plc ∨ (b, a) ∈ plc := by
      intro a b h
      obtain ⟨⟨c, d⟩, h6, h7⟩ := List.mem_map.1 h
      rcases sorted2_cases c d with ⟨k, -⟩ | ⟨k, -⟩ <;> rw [k] at h7 <;> cases h7
      · exact .inl h6
      · exact .inr h6
    rcases h5 with h5 | h5
    · exact key h5
    · exact (key h5).symm

/-- One edge has to be recovered, the other one is there. -/
example : ∃ m, ratA = some m ∧ RecoverReady exRecover.pos m ∧ GoodSearch exRecover ∧
    (m.recoverAndLockEdges exRecover 40 id [(0, 4), (1, 0)]).map (fun r => (r.1.numTets, r.2)) = some (some 9, []) := by
  obtain ⟨m, h1, h2⟩ := ratA_recover
  exact ⟨m, h1, h2, C67_search _ _, of_map (f := fun m => (m.recoverAndLockEdges exRecover 40 id [(0, 4), (1, 0)]).map
    (fun r => (r.1.numTets, r.2))) h1 (by decide +kernel)⟩

/-! ## C66 -/

/-- C66: what `recover_and_lock_boundary` gives. -/
theorem C66_outcome (hg : GoodSearch tests) {m m1 : Mesh P V T} (h1 : m.setTrackTriMap true = some m1)
    (h : RecoverReady tests.pos m1) (tris : List V3) :
    ∃ r, Settles (fun fuel => m.recoverAndLockBoundary tests fuel tris) r ∧ TrisOutcome tests m1 (tris.map sorted3) r :=
  boundary_does hg h1 h tris

/-- C66: a triangle that is not missing at the end is in the mesh, and locked on both sides. -/
theorem C66_locked (hg : GoodSearch tests) {m m1 m' : Mesh P V T} (h1 : m.setTrackTriMap true = some m1)
    (h : RecoverReady tests.pos m1) {tris missing : List V3}
    (hr : Settles (fun fuel => m.recoverAndLockBoundary tests fuel tris) (some (m', missing))) :
    (∀ t ∈ tris.map sorted3, t ∈ missing ∨ LockedTri m' t ∧ LockedTri m' (t.2.1, t.1, t.2.2)) ∧
      (∀ t ∈ missing, t ∈ tris.map sorted3) ∧ Consistent m' ∧ Oriented tests.pos m' ∧ SameVertices m1 m' ∧
      (∀ s, LockedTri m1 s → LockedTri m' s) ∧ (∀ a b, LockedEdge m1 a b → LockedEdge m' a b) ∧
      ∀ s, LockedTri m' s → LockedTri m1 s ∨ ∃ t ∈ tris.map sorted3, SameThree s t := by
  obtain ⟨r, h2, h3⟩ := C66_outcome hg h1 h tris
  cases h2.unique hr
  obtain ⟨h4, h5, h6⟩ := h3
  exact ⟨h6, fun t ht => (h5 t ht).1, h4.ready.consistent, h4.ready.oriented, h4.vertices, h4.locks.triKept, h4.locks.edgeKept,
    h4.locks.tri⟩

/-- Two triangles are there; the third one cannot be recovered. -/
example : ∃ m m1, ratA = some m ∧ m.setTrackTriMap true = some m1 ∧ RecoverReady exRecover.pos m1 ∧ GoodSearch exRecover ∧
    (m.recoverAndLockBoundary exRecover 40 [(0, 4, 1), (1, 2, 0), (1, 2, 3)]).map (fun r => (r.1.numTets, r.2)) =
      some (some 8, [(0, 1, 4)]) := by
  obtain ⟨m, h1, h2⟩ := ratA_recover
  obtain ⟨m1, k1, k2, k3, k4⟩ := C28_track_exact h2.consistent
  refine ⟨m, m1, h1, k1, h2.run (.lock ?_ (.refl m1)), C67_search _ _, of_map (f := fun m =>
    (m.recoverAndLockBoundary exRecover 40 [(0, 4, 1), (1, 2, 0), (1, 2, 3)]).map (fun r => (r.1.numTets, r.2))) h1
    (by decide +kernel)⟩
  obtain ⟨tm, rfl⟩ : ∃ tm, m1 = { m with trackTriMap := true, triMap := tm } := ⟨_, k4.1⟩
  exact ⟨k3, ⟨fun _ => rfl, rfl, h2.tracked.symm, rfl⟩, fun _ => .rfl, fun _ h => h, fun _ _ h => h⟩

end Tet
