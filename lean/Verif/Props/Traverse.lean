import Verif.Props.FlipLaws
import Verif.Proofs.Marks
import Verif.Proofs.Link

/-!
# Traversals: circular lists (C17), edge rings (C16), tets and edges at a vertex (C30, C31, C32),
looking up elements (C29, C33)
-/

namespace Tet
open Spec
variable {P V T : Type}

/-! ## C17 -/

/-- A finite cycle: every element once, in order from the start, then the end forever. -/
theorem C17_circular {K W : Type} [DecidableEq K] (valueFn : K → Option W) (nextFn : K → Option K)
    (val : K → W) {a : K} {l : List K} (hc : RunsThrough nextFn a l) (hn : (a :: l).Nodup)
    (hv : ∀ x ∈ a :: l, valueFn x = some (val x)) :
    Yields (CircIter.next valueFn nextFn) (CircIter.new a) ((a :: l).map fun x => (x, val x)) :=
  circ_yields valueFn nextFn val a a l hc (List.nodup_cons.1 hn).1 hv

/-- Every injective successor function on a finite set gives such cycles, from every start. -/
theorem C17_cycles {K : Type} (S : Finset K) (f : K → K) (hf : ∀ x ∈ S, f x ∈ S)
    (hinj : ∀ x ∈ S, ∀ y ∈ S, f x = f y → x = y) {a : K} (ha : a ∈ S) :
    ∃ l, RunsThrough (fun x => some (f x)) a l ∧ (a :: l).Nodup ∧ ∀ x ∈ l, x ∈ S :=
  exists_runsThrough (S := (S : Set K)) S.finite_toSet (fun x hx => ⟨f x, hf x hx, rfl⟩)
    (fun x hx y hy h => hinj x hx y hy (Option.some.inj h)) ha

/-- The cycle 3, 0, 1, 2 with doubled values; two calls more than there are elements. -/
example : (calls (CircIter.next (fun k => some (2 * k)) (fun k => some ((k + 1) % 4))) 6 (CircIter.new 3)).map (·.1) =
    some [some (3, 6), some (0, 0), some (1, 2), some (2, 4), none, none] := by decide

example : RunsThrough (fun k => some ((k + 1) % 4)) 3 [0, 1, 2] ∧ [3, 0, 1, 2].Nodup := by
  simp [RunsThrough]

/-! ## C16 -/

theorem C16_edge_ring {m : Mesh P V T} (hm : Consistent m) {w : Walker} (hw : Live m w) :
    ∃ l, Yields m.edgeRingNext (CircIter.new w) (w :: l) ∧ (w :: l).Nodup ∧
      RunsThrough (fun x => m.toAdj x.twin) w l ∧
      (∀ x, x ∈ w :: l ↔ SameRing m w x) ∧ ∀ x, x ∈ w :: l ↔ Live m x ∧ m.edge x = m.edge w := by
  obtain ⟨l, h1, h2, h3, h4, h5⟩ := edgeRing_yields hm.toT hw
  refine ⟨l, h1, h3, h2, h5, fun x => ?_⟩
  obtain ⟨a, b, c, d, hw4⟩ := live_iff.1 hw
  have he := (tet4_parts hw4).2.2.1
  constructor
  · intro hx
    exact ⟨h4 x hx, by rw [(ring_star hm.toT he ((h5 x).1 hx)).2, he]⟩
  · rintro ⟨-, hx⟩
    exact (h5 x).2 (hm.oneRing w x (a, b) he (hx.trans he))

/-- The ring of an edge of `nine`. -/
example : (nine.bind fun m => (calls m.edgeRingNext 5 (CircIter.new ⟨0, 3⟩)).map (·.1)) =
    some [some ⟨0, 3⟩, some ⟨2, 4⟩, some ⟨5, 1⟩, none, none] := by decide +kernel

/-! ## C30 -/

theorem start_of {m : Mesh P V T} (hm : Consistent m) {v : VId} (hv : InMesh m v) (hg : v ≠ GHOST) :
    ∃ w, m.walkerFromVertex v = some w ∧ m.first w = some v := by
  obtain ⟨w, hw⟩ := hv
  rcases hm.vertexLive w v hw with h | ⟨x, h1, h2⟩
  · exact absurd h hg
  · exact ⟨x.tet, by simp [Mesh.walkerFromVertex, h1], h2⟩

/-- The walk ends; it gives one walker with first vertex `v` for each of the tets that are connected
to the start through triangles at `v`, and no others. -/
theorem C30_walkers {m : Mesh P V T} (hm : Consistent m) {v : VId} (hv : InMesh m v) (hg : v ≠ GHOST) :
    ∃ w s ws, m.walkerFromVertex v = some w ∧ m.walkersFromVertex v = some s ∧ Yields m.walkersNext s ws ∧
      (∀ x ∈ ws, m.first x = some v) ∧ (ws.map Walker.tet).Nodup ∧
      ∀ k, k ∈ ws.map Walker.tet ↔ StarReach m v w.tet k := by
  obtain ⟨w, h1, h2⟩ := start_of hm hv hg
  obtain ⟨ws, h3, h4, h5, h6⟩ := walkers_yields hm.toT h2
  exact ⟨w, _, ws, h1, by simp [Mesh.walkersFromVertex, h1], h3, h4, h5, h6⟩

theorem starReach_first {m : Mesh P V T} (hm : ConsistentT m) {v : VId} {w : Walker} (hw : m.first w = some v) {k}
    (h : StarReach m v w.tet k) : ∃ x : Walker, x.tet = k ∧ m.first x = some v := by
  induction h with
  | refl => exact ⟨w, rfl, hw⟩
  | @cross x x' _ hf hx ih =>
    obtain ⟨b, c, d, h4⟩ := first_tet4 hf
    obtain ⟨y, h5, h6⟩ := hm.adj_tri (tet4_parts h4).2.2.2
    rw [hx] at h5
    cases h5
    obtain ⟨e, h7⟩ := tri_tet4 h6
    exact ⟨x'.perm P1203, rfl, (tet4_parts (tet4_perm h7 P1203)).1⟩

/-- In all meshes made from four points by flips, the tets at every vertex are connected ... -/
theorem C30_connected (orient : P → P → P → P → Bool) (centroid : P × P × P × P → P) (nan : P)
    (v0 v1 v2 v3 : P × V) (dt : T) {m m' : Mesh P V T}
    (hnew : Mesh.new orient centroid nan v0 v1 v2 v3 dt = some m) (h : FlipSteps m m') (v : VId) :
    StarConnected m' v := by
  obtain ⟨m1, h1, h2, -, -, -, -, a, b, c, d, h6, -, -, h8⟩ := C14_new orient centroid nan v0 v1 v2 v3 dt
  rw [hnew] at h1
  cases h1
  have hd : [a, b, c, d, GHOST].Nodup := by
    split_ifs at h6 <;> simp only [Prod.mk.injEq] at h6 <;> obtain ⟨rfl, rfl, rfl, rfl⟩ := h6 <;> decide +kernel
  have h0 := tetConn_five hd h8 v
  have : Consistent m' ∧ TetConn m' v := by
    clear hnew
    induction h with
    | refl => exact ⟨h2, h0⟩
    | step _ hs ih =>
      obtain ⟨i1, i2⟩ := ih
      exact ⟨step_consistent i1 hs, hs.tetConn i1.toT i2⟩
  exact this.2.star this.1.toT

/-- ... so there the walk gives every tet with the vertex `v` exactly once. -/
theorem C30_all {m : Mesh P V T} (hm : Consistent m) {v : VId} (hv : InMesh m v) (hg : v ≠ GHOST)
    (hc : StarConnected m v) :
    ∃ s ws, m.walkersFromVertex v = some s ∧ Yields m.walkersNext s ws ∧
      (∀ x ∈ ws, m.first x = some v) ∧ (ws.map Walker.tet).Nodup ∧
      ∀ k, k ∈ ws.map Walker.tet ↔ ∃ x : Walker, x.tet = k ∧ m.first x = some v := by
  obtain ⟨w, s, ws, h1, h2, h3, h4, h5, h6⟩ := C30_walkers hm hv hg
  obtain ⟨w', h1', h7⟩ := start_of hm hv hg
  rw [h1] at h1'
  cases h1'
  refine ⟨s, ws, h2, h3, h4, h5, fun k => ?_⟩
  rw [h6]
  constructor
  · exact starReach_first hm.toT h7
  · rintro ⟨x, rfl, hx⟩
    exact hc w x h7 hx

/-- Vertex 4 of `nine` is in six of its tets. -/
example : (nine.bind fun m => (m.walkersFromVertex 4).bind fun s =>
    (calls m.walkersNext 8 s).map fun r => r.1.map (Option.map Walker.tet)) =
    some [some 0, some 5, some 7, some 8, some 1, some 6, none, none] := by decide +kernel

/-! ## C31 -/

/-- Any number of calls of the flag-based walk gives what the plain one gives, and dropping it
then gives back the mesh. -/
theorem C31_walkers {m : Mesh P V T} (hn : NoMarks m) {v : VId} {s : Mesh.WalkersState}
    (hs : m.walkersFromVertex v = some s) (n : Nat) {as : List (Option Walker)} {s' : Mesh.WalkersState}
    (h : calls m.walkersNext n s = some (as, s')) :
    ∃ t t', m.walkersFromVertexOpt v = some t ∧ calls Mesh.walkersOptNext n t = some (as, t') ∧
      Mesh.walkersOptDrop t' = some m := by
  simp only [Mesh.walkersFromVertex, Option.map_eq_some_iff] at hs
  obtain ⟨w, hw, rfl⟩ := hs
  obtain ⟨h1, h2⟩ := calls_sim (next' := Mesh.walkersOptNext) (walkersF m)
    (fun s => ∀ k ∈ s.visited, (m.tets.get k).isSome)
    (fun s a s' hI h => walkers_sim s.visited hI s.toSearch a s' h) n _ as s' (by simp) h
  refine ⟨⟨m, [], [w]⟩, _, by simp [Mesh.walkersFromVertexOpt, hw], ?_, walkersF_drop hn.1 s' h2⟩
  have : walkersF m ⟨[], [w]⟩ = ⟨m, [], [w]⟩ := by
    simp [walkersF, markTets_none hn.1]
  rw [← this]
  exact h1

/-- The same for the edges at a vertex. -/
theorem C31_targets {m : Mesh P V T} (hm : Consistent m) (hn : NoMarks m) {v : VId} {s : Mesh.TargetsState}
    (hs : m.vertexTargetWalkers v = some s) (fuel n : Nat) {as : List (Option Walker)} {s' : Mesh.TargetsState}
    (h : calls (m.targetsNext fuel) n s = some (as, s')) :
    ∃ t t', m.vertexTargetWalkersOpt v = some t ∧ calls (Mesh.targetsOptNext fuel) n t = some (as, t') ∧
      Mesh.targetsOptDrop t' = some m := by
  simp only [Mesh.vertexTargetWalkers, Option.map_eq_some_iff] at hs
  obtain ⟨w, hw, rfl⟩ := hs
  obtain ⟨h1, h2⟩ := calls_sim (next' := Mesh.targetsOptNext fuel) (targetsF m)
    (fun s => ∀ k ∈ s.visited, HasFlags m k)
    (fun s a s' hI h => targets_sim hm.toT fuel s.visited hI s.toSearch a s' h) n _ as s' (by simp) h
  refine ⟨⟨m, [], [w]⟩, _, by simp [Mesh.vertexTargetWalkersOpt, hw], ?_, targetsF_drop hn.2.1 hn.2.2 s' h2⟩
  have : targetsF m ⟨[], [w]⟩ = ⟨m, [], [w]⟩ := by
    simp [targetsF, markVerts_none hn.2.1 hn.2.2]
  rw [← this]
  exact h1

/-- The walks of `nine` from vertex 4, three calls each, and which marks are set before dropping. -/
example : (nine.bind fun m => (m.walkersFromVertexOpt 4).bind fun s =>
    (calls Mesh.walkersOptNext 3 s).map fun r => (r.1.map (Option.map Walker.tet),
      (List.range 9).filter fun k => (r.2.mesh.tets.get k).any (·.flags.walkersFromVertex))) =
    some ([some 0, some 5, some 7], [0, 5, 7]) := by decide +kernel

/-! ## C32 -/

/-- With enough fuel for the inner loop: every neighbour in a connected tet exactly once, never `v`
itself. -/
theorem C32_targets {m : Mesh P V T} (hm : Consistent m) {v : VId} (hv : InMesh m v) (hg : v ≠ GHOST) :
    ∃ w s ws us N, m.walkerFromVertex v = some w ∧ m.vertexTargetWalkers v = some s ∧
      (∀ fuel ≥ N, Yields (m.targetsNext fuel) s ws ∧ Yields (m.vertexTargetsNext fuel) s us) ∧
      ws.map m.edge = us.map (fun u => some (v, u)) ∧ us.Nodup ∧ v ∉ us ∧
      ∀ u, u ∈ us ↔ ∃ x : Walker, StarReach m v w.tet x.tet ∧ m.edge x = some (v, u) := by
  obtain ⟨w, h1, h2⟩ := start_of hm hv hg
  obtain ⟨ws, h3, h4, h5, h6⟩ := targets_yields hm.toT h2 _ le_rfl
  have hsec : ∀ x ∈ ws, ∃ u, m.edge x = some (v, u) ∧ m.second x = some u := by
    intro x hx
    obtain ⟨b, c, d, hx4⟩ := first_tet4 (h4 x hx).1
    exact ⟨b, (tet4_parts hx4).2.2.1, tet4_second hx4⟩
  obtain ⟨us, hus, hws⟩ : ∃ us : List VId, ws.map m.second = us.map some ∧
      ws.map m.edge = us.map (fun u => some (v, u)) := by
    clear h3 h4 h5 h6
    induction ws with
    | nil => exact ⟨[], rfl, rfl⟩
    | cons x ws ih =>
      obtain ⟨us, hus, hws⟩ := ih fun x hx => hsec x (by simp [hx])
      obtain ⟨u, hu, hu'⟩ := hsec x (by simp)
      exact ⟨u :: us, by simp [hu', hus], by simp [hu, hws]⟩
  have hmem : ∀ u, u ∈ us ↔ ∃ x : Walker, StarReach m v w.tet x.tet ∧ m.edge x = some (v, u) := by
    intro u
    have := h6 u
    rw [hus] at this
    simp only [List.mem_map, Option.some.injEq, exists_eq_right] at this
    rw [this]
    exact ⟨fun ⟨x, a, b⟩ => ⟨x, b, a⟩, fun ⟨x, a, b⟩ => ⟨x, b, a⟩⟩
  refine ⟨w, ⟨[], [w]⟩, ws, us, 12 * m.tets.keys.length + 12, h1, by simp [Mesh.vertexTargetWalkers, h1], ?_, hws, ?_, ?_, hmem⟩
  · intro fuel hf
    have hy : Yields (m.targetsNext fuel) ⟨[], [w]⟩ ws :=
      h3.mono fun s r h => targetsNext_mono m hf s.visited s.toSearch r h
    refine ⟨hy, hy.mapM (f := m.second) ?_ ?_ ws us _ hus⟩
    · intro s s' h
      simp [Mesh.vertexTargetsNext, h]
    · intro s a b s' h hb
      simp [Mesh.vertexTargetsNext, h, hb]
  · rw [hus] at h5
    exact List.Nodup.of_map _ h5
  · intro hvv
    obtain ⟨x, -, hx⟩ := (hmem v).1 hvv
    obtain ⟨c, d, hx4⟩ := edge_tet4 hx
    exact (hm.toT.ne4 hx4).1 rfl

/-- If the tets at `v` are connected these are all vertices joined to `v` by an edge. -/
theorem C32_all {m : Mesh P V T} (hm : Consistent m) {v : VId} (hv : InMesh m v) (hg : v ≠ GHOST)
    (hc : StarConnected m v) :
    ∃ s us N, m.vertexTargetWalkers v = some s ∧ (∀ fuel ≥ N, Yields (m.vertexTargetsNext fuel) s us) ∧
      us.Nodup ∧ v ∉ us ∧ ∀ u, u ∈ us ↔ HasEdge m v u ∧ u ≠ v := by
  obtain ⟨w, s, ws, us, N, h1, h2, h3, -, h4, h5, h6⟩ := C32_targets hm hv hg
  obtain ⟨w', h1', h7⟩ := start_of hm hv hg
  rw [h1] at h1'
  cases h1'
  refine ⟨s, us, N, h2, fun fuel hf => (h3 fuel hf).2, h4, h5, fun u => ?_⟩
  constructor
  · intro hu
    obtain ⟨x, -, hx⟩ := (h6 u).1 hu
    obtain ⟨c, d, hx4⟩ := edge_tet4 hx
    exact ⟨hm.toT.hasEdge_tet.2 ⟨_, _, ⟨x, hx4⟩⟩, (hm.toT.ne4 hx4).1.symm⟩
  · rintro ⟨hu, hne⟩
    obtain ⟨c, d, x, hx4⟩ := hm.toT.hasEdge_tet.1 hu
    exact (h6 u).2 ⟨x, hc w x h7 (tet4_parts hx4).1, (tet4_parts hx4).2.2.1⟩

/-- The neighbours of vertex 4 in `nine`. -/
example : (nine.bind fun m => (m.vertexTargetWalkers 4).bind fun s =>
    (calls (m.vertexTargetsNext 20) 7 s).map (·.1)) =
    some [some GHOST, some 3, some 2, some 1, some 0, none, none] := by decide +kernel

/-! ## C33, C29 -/

theorem findSome?_spec {α β : Type} {f : α → Option β} {l : List α} :
    (∃ b, l.findSome? f = some b ∧ ∃ a ∈ l, f a = some b) ∨ (l.findSome? f = none ∧ ∀ a ∈ l, f a = none) := by
  cases h : l.findSome? f with
  | none => exact .inr ⟨rfl, List.findSome?_eq_none_iff.1 h⟩
  | some b =>
    obtain ⟨a, ha, hb⟩ := List.exists_of_findSome?_eq_some h
    exact .inl ⟨b, rfl, a, ha, hb⟩

/-- `walker_from_edge`, with enough fuel: a walker with the edge, or there is none in the connected
tets. -/
theorem C33_edge {m : Mesh P V T} (hm : Consistent m) {v : VId} (hv : InMesh m v) (hg : v ≠ GHOST) (u : VId) :
    ∃ w r N, m.walkerFromVertex v = some w ∧ (∀ fuel ≥ N, m.walkerFromEdge fuel (v, u) = some r) ∧
      ((∃ x, r = some x ∧ m.edge x = some (v, u)) ∨
        (r = none ∧ ∀ x : Walker, m.edge x = some (v, u) → ¬ StarReach m v w.tet x.tet)) := by
  obtain ⟨w, s, ws, us, N, h1, h2, h3, h4, -, -, h6⟩ := C32_targets hm hv hg
  have hsec : ∀ x ∈ ws, ∃ u, u ∈ us ∧ m.edge x = some (v, u) ∧ m.second x = some u := by
    intro x hx
    have : m.edge x ∈ us.map (fun u => some (v, u)) := h4 ▸ List.mem_map.2 ⟨x, hx, rfl⟩
    obtain ⟨u, hu, he⟩ := List.mem_map.1 this
    obtain ⟨c, d, h⟩ := edge_tet4 he.symm
    exact ⟨u, hu, he.symm, tet4_second h⟩
  let f : Walker → Option Walker := fun x => if m.second x = some u then some x else none
  refine ⟨w, ws.findSome? f, max N (ws.length + 1), h1, ?_, ?_⟩
  · intro fuel hf
    simp only [Mesh.walkerFromEdge, h2, Option.bind_eq_bind, Option.bind_some]
    refine firstHit_eq ws fuel s (h3 fuel (by omega)).1 ?_ (by omega)
    intro x hx
    obtain ⟨u', -, -, h⟩ := hsec x hx
    simp [h, f]
  · rcases findSome?_spec (f := f) (l := ws) with ⟨b, hb, a, ha, hab⟩ | ⟨hnone, hall⟩
    · left
      simp only [f] at hab
      split_ifs at hab with hc
      cases hab
      obtain ⟨u', -, h7, h8⟩ := hsec _ ha
      rw [hc] at h8
      cases h8
      exact ⟨_, hb, h7⟩
    · right
      refine ⟨hnone, ?_⟩
      intro x hx hr
      have hu : u ∈ us := (h6 u).2 ⟨x, hr, hx⟩
      have : some (v, u) ∈ ws.map m.edge := h4 ▸ List.mem_map.2 ⟨u, hu, rfl⟩
      obtain ⟨y, hy, hye⟩ := List.mem_map.1 this
      obtain ⟨c, d, h⟩ := edge_tet4 hye
      have := hall y hy
      simp [f, tet4_second h] at this

/-- If the tets at `v` are connected, `None` means that the mesh does not have the edge. -/
theorem C33_edge_all {m : Mesh P V T} (hm : Consistent m) {v : VId} (hv : InMesh m v) (hg : v ≠ GHOST)
    (hc : StarConnected m v) (u : VId) :
    ∃ r N, (∀ fuel ≥ N, m.walkerFromEdge fuel (v, u) = some r) ∧
      ((∃ x, r = some x ∧ m.edge x = some (v, u)) ∨ (r = none ∧ ∀ x, m.edge x ≠ some (v, u))) := by
  obtain ⟨w, r, N, h1, h2, h3⟩ := C33_edge hm hv hg u
  obtain ⟨w', h1', h7⟩ := start_of hm hv hg
  rw [h1] at h1'
  cases h1'
  refine ⟨r, N, h2, h3.imp id fun ⟨a, b⟩ => ⟨a, fun x hx => b x hx ?_⟩⟩
  obtain ⟨c, d, h⟩ := edge_tet4 hx
  exact hc w x h7 (tet4_parts h).1

/-- The three walkers of a tet with a given first vertex. -/
theorem three_walkers {m : Mesh P V T} (hm : ConsistentT m) {x y : Walker} {v : VId} (hx : m.first x = some v)
    (hy : m.first y = some v) (ht : x.tet = y.tet) : y = x ∨ y = x.nve ∨ y = x.pve := by
  simp only [Mesh.first, Option.map_eq_some_iff] at hx hy
  obtain ⟨t, k1, k2⟩ := hx
  obtain ⟨t', k3, k4⟩ := hy
  rw [← ht, k1] at k3
  cases k3
  have e1 : firstIdx x.edge = firstIdx y.edge := hm.distinct _ _ k1 (k2.trans k4.symm)
  have : ∀ e e', firstIdx e = firstIdx e' → e' = e ∨ e' = nve e ∨ e' = pve e := by decide
  obtain ⟨yt, ye⟩ := y
  obtain ⟨xt, xe⟩ := x
  simp only at ht e1
  subst ht
  simp only [Walker.nve, Walker.pve, Walker.mk.injEq, true_and]
  exact this _ _ e1

/-- `walker_from_tri` without the index: a walker with exactly this triangle in this rotation, or
there is none in the connected tets. -/
theorem C33_tri {m : Mesh P V T} (hm : Consistent m) (htrack : m.trackTriMap = false) {v : VId}
    (hv : InMesh m v) (hg : v ≠ GHOST) (b c : VId) :
    ∃ w r N, m.walkerFromVertex v = some w ∧ (∀ fuel ≥ N, m.walkerFromTri fuel (v, b, c) = some r) ∧
      ((∃ x, r = some x ∧ m.tri x = some (v, b, c)) ∨
        (r = none ∧ ∀ x : Walker, m.tri x = some (v, b, c) → ¬ StarReach m v w.tet x.tet)) := by
  obtain ⟨w, s, ws, h1, h2, h3, h4, h5, h6⟩ := C30_walkers hm hv hg
  let f : Walker → Option Walker := fun x =>
    if m.tri x = some (v, b, c) then some x
    else if m.tri x.nve = some (v, b, c) then some x.nve
    else if m.tri x.pve = some (v, b, c) then some x.pve else none
  refine ⟨w, ws.findSome? f, ws.length + 1, h1, ?_, ?_⟩
  · intro fuel hf
    rw [Mesh.walkerFromTri, htrack]
    simp only [Bool.false_eq_true, if_false, h2, Option.bind_eq_bind, Option.bind_some]
    refine firstHit_eq ws fuel s h3 ?_ (by omega)
    intro x hx
    obtain ⟨p, q, r, hx4⟩ := first_tet4 (h4 x hx)
    have e1 := (tet4_parts hx4).2.2.2
    have e2 : m.tri x.nve = some (v, q, r) := by
      rw [(walker_moves x).2.2.1]
      exact (tet4_parts (tet4_perm hx4 P0231)).2.2.2
    have e3 : m.tri x.pve = some (v, r, p) := by
      rw [(walker_moves x).2.2.2.1]
      exact (tet4_parts (tet4_perm hx4 P0312)).2.2.2
    simp only [e1, e2, e3, Option.bind_some, Option.some.injEq, f]
    split_ifs <;> rfl
  · rcases findSome?_spec (f := f) (l := ws) with ⟨y, hb, a, ha, hab⟩ | ⟨hnone, hall⟩
    · left
      simp only [f] at hab
      split_ifs at hab with c1 c2 c3 <;> cases hab
      exacts [⟨_, hb, c1⟩, ⟨_, hb, c2⟩, ⟨_, hb, c3⟩]
    · right
      refine ⟨hnone, ?_⟩
      intro x hx hr
      obtain ⟨y, hy, hyt⟩ := List.mem_map.1 ((h6 _).2 hr)
      obtain ⟨d, hx4⟩ := tri_tet4 hx
      have := hall y hy
      simp only [f] at this
      split_ifs at this with c1 c2 c3
      rcases three_walkers hm.toT (h4 y hy) (tet4_parts hx4).1 hyt with rfl | rfl | rfl
      exacts [c1 hx, c2 hx, c3 hx]

/-- With the index, the answer needs no search and no condition on the vertices: a walker with
exactly this triangle in this rotation, or the mesh does not have it. -/
theorem C29_tracked {m : Mesh P V T} (hm : Consistent m) (htrack : m.trackTriMap = true) (s : V3) :
    ∃ r, (∀ fuel, m.walkerFromTri fuel s = some r) ∧
      ((∃ x, r = some x ∧ m.tri x = some s) ∨ (r = none ∧ ∀ x, m.tri x ≠ some s)) := by
  obtain ⟨a, b, c⟩ := s
  cases hk : m.triMap (triKey (a, b, c)) with
  | none =>
    refine ⟨none, fun fuel => by simp [Mesh.walkerFromTri, htrack, hk], .inr ⟨rfl, ?_⟩⟩
    intro x hx
    obtain ⟨w', hw'⟩ := hm.triMapComplete htrack x _ hx
    rw [hk] at hw'
    cases hw'
  | some w =>
    obtain ⟨t, h1, h2⟩ := hm.triMapSound htrack _ _ hk
    have hrot : Rotation t (a, b, c) :=
      Rotation.trans (h2 ▸ triKey_rotation t) (Rotation.symm (triKey_rotation (a, b, c)))
    obtain ⟨p, q, r⟩ := t
    obtain ⟨d, h4⟩ := tri_tet4 h1
    obtain ⟨n1, n2, n3, n4, n5, n6⟩ := hm.toT.ne4 h4
    have e2 : m.tri w.nfe = some (q, r, p) := by
      rw [(walker_moves w).1]
      exact (tet4_parts (tet4_perm h4 P1203)).2.2.2
    have e3 : m.tri w.pfe = some (r, p, q) := by
      rw [(walker_moves w).2.1]
      exact (tet4_parts (tet4_perm h4 P2013)).2.2.2
    rcases hrot with h | h | h <;> simp only [Prod.mk.injEq] at h <;> obtain ⟨rfl, rfl, rfl⟩ := h
    · exact ⟨some w, fun fuel => by simp [Mesh.walkerFromTri, htrack, hk, Mesh.toEdgeAssumingTri, h4], .inl ⟨w, rfl, h1⟩⟩
    · exact ⟨some w.nfe, fun fuel => by simp [Mesh.walkerFromTri, htrack, hk, Mesh.toEdgeAssumingTri, h4, n1],
        .inl ⟨_, rfl, e2⟩⟩
    · exact ⟨some w.pfe, fun fuel => by simp [Mesh.walkerFromTri, htrack, hk, Mesh.toEdgeAssumingTri, h4, n2, n4],
        .inl ⟨_, rfl, e3⟩⟩

/-- `walker_from_tet`: a walker showing the vertices in this order, or there is none in the connected
tets. -/
theorem C33_tet {m : Mesh P V T} (hm : Consistent m) {v : VId} (hv : InMesh m v) (hg : v ≠ GHOST) (b c d : VId) :
    ∃ w r N, m.walkerFromVertex v = some w ∧ (∀ fuel ≥ N, m.walkerFromTet fuel (v, b, c, d) = some r) ∧
      ((∃ x, r = some x ∧ m.tet4 x = some (v, b, c, d)) ∨
        (r = none ∧ ∀ x : Walker, m.tet4 x = some (v, b, c, d) → ¬ StarReach m v w.tet x.tet)) := by
  obtain ⟨w, r, N, h1, h2, h3⟩ : ∃ w r N, m.walkerFromVertex v = some w ∧
      (∀ fuel ≥ N, m.walkerFromTri fuel (v, b, c) = some r) ∧
      ((∃ x, r = some x ∧ m.tri x = some (v, b, c)) ∨
        (r = none ∧ ∀ x : Walker, m.tri x = some (v, b, c) → ¬ StarReach m v w.tet x.tet)) := by
    cases htrack : m.trackTriMap with
    | false => exact C33_tri hm htrack hv hg b c
    | true =>
      obtain ⟨w, h1, -⟩ := start_of hm hv hg
      obtain ⟨r, h2, h3⟩ := C29_tracked hm htrack (v, b, c)
      exact ⟨w, r, 0, h1, fun fuel _ => h2 fuel, h3.imp id fun ⟨h, h'⟩ => ⟨h, fun x hx => absurd hx (h' x)⟩⟩
  rcases h3 with ⟨x, rfl, hx⟩ | ⟨rfl, hno⟩
  · obtain ⟨d', h4⟩ := tri_tet4 hx
    by_cases hd : d' = d
    · subst hd
      exact ⟨w, some x, N, h1, fun fuel hf => by simp [Mesh.walkerFromTet, h2 fuel hf, (tet4_parts h4).2.1],
        .inl ⟨x, rfl, h4⟩⟩
    · refine ⟨w, none, N, h1, fun fuel hf => by simp [Mesh.walkerFromTet, h2 fuel hf, (tet4_parts h4).2.1, hd],
        .inr ⟨rfl, ?_⟩⟩
      intro y hy
      have := hm.toT.tri_eq hx (tet4_parts hy).2.2.2
      subst this
      rw [h4] at hy
      simp only [Option.some.injEq, Prod.mk.injEq, true_and] at hy
      exact absurd hy hd
  · exact ⟨w, none, N, h1, fun fuel hf => by simp [Mesh.walkerFromTet, h2 fuel hf],
      .inr ⟨rfl, fun x hx => hno x (tet4_parts hx).2.2.2⟩⟩

/-- If the tets at `v` are connected, `None` means that the mesh does not have the triangle. -/
theorem C33_tri_all {m : Mesh P V T} (hm : Consistent m) (htrack : m.trackTriMap = false) {v : VId}
    (hv : InMesh m v) (hg : v ≠ GHOST) (hc : StarConnected m v) (b c : VId) :
    ∃ r N, (∀ fuel ≥ N, m.walkerFromTri fuel (v, b, c) = some r) ∧
      ((∃ x, r = some x ∧ m.tri x = some (v, b, c)) ∨ (r = none ∧ ∀ x, m.tri x ≠ some (v, b, c))) := by
  obtain ⟨w, r, N, h1, h2, h3⟩ := C33_tri hm htrack hv hg b c
  obtain ⟨w', h1', h7⟩ := start_of hm hv hg
  rw [h1] at h1'
  cases h1'
  refine ⟨r, N, h2, h3.imp id fun ⟨a, b⟩ => ⟨a, fun x hx => b x hx ?_⟩⟩
  obtain ⟨d, h⟩ := tri_tet4 hx
  exact hc w x h7 (tet4_parts h).1

/-- If the tets at `v` are connected, `None` means that the mesh does not have the tet in any even
order. -/
theorem C33_tet_all {m : Mesh P V T} (hm : Consistent m) {v : VId} (hv : InMesh m v) (hg : v ≠ GHOST)
    (hc : StarConnected m v) (b c d : VId) :
    ∃ r N, (∀ fuel ≥ N, m.walkerFromTet fuel (v, b, c, d) = some r) ∧
      ((∃ x, r = some x ∧ m.tet4 x = some (v, b, c, d)) ∨ (r = none ∧ ¬ HasTet m (v, b, c, d))) := by
  obtain ⟨w, r, N, h1, h2, h3⟩ := C33_tet hm hv hg b c d
  obtain ⟨w', h1', h7⟩ := start_of hm hv hg
  rw [h1] at h1'
  cases h1'
  refine ⟨r, N, h2, h3.imp id fun ⟨a, b⟩ => ⟨a, fun ⟨x, hx⟩ => b x hx ?_⟩⟩
  exact hc w x h7 (tet4_parts hx).1

/-- The hypotheses hold for vertex 4 of `nine`, which is made by flips from `five`. -/
example : ∃ m, nine = some m ∧ Consistent m ∧ InMesh m 4 ∧ (4 : Nat) ≠ GHOST ∧ m.trackTriMap = false := by
  obtain ⟨m, h1, h2⟩ := nine_ok
  exact ⟨m, h1, h2, ⟨⟨0, 1⟩, of_map (f := fun m => m.first ⟨0, 1⟩) h1 (by decide +kernel)⟩, by decide,
    of_map (f := fun m => m.trackTriMap) h1 (by decide +kernel)⟩

/-- Found and not found. -/
example : nine.map (fun m => (m.walkerFromTri 20 (4, 1, 2), m.walkerFromEdge 20 (4, GHOST),
      m.walkerFromTet 20 (4, 1, 2, 0), m.walkerFromTet 20 (4, 1, 0, 2))) =
    some (some (some ⟨8, 11⟩), some (some ⟨0, 1⟩), some none, some (some ⟨7, 10⟩)) := by decide +kernel

end Tet
