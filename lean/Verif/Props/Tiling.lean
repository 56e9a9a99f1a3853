import Verif.Proofs.TilingMesh
import Verif.Props.Integrity

/-!
# Meshes that fill space
-/

namespace Tet
open Spec
variable {K V T H : Type} [Field K] [LinearOrder K] [IsStrictOrderedRing K]

/-! ## C74: flips and recovery in a mesh that fills space -/

/-- C74: in a mesh that fills space, a flip to positively oriented tets never has to add an edge or a triangle that
exists; it succeeds, and the new mesh fills space. -/
theorem C74_flip {m : Mesh (Pt K) V T} (hm : Consistent m) (ht : Tiles m) (hr : Room m) {old new taken r}
    (h : FlipAt m old new taken r) (hp : ∀ q ∈ new, ∃ s, m.orient q.1 q.2.1 q.2.2.1 q.2.2.2 = some s ∧ 0 < s) :
    ¬ taken ∧ ∃ m' ws, r = some (m', ws) ∧ Consistent m' ∧ Replaces m m' old new ∧ SameVertices m m' ∧ Tiles m' := by
  have hp' : ∀ q ∈ new, Mesh.positive m q = true := by
    rintro ⟨a, b, c, d⟩ hq
    obtain ⟨s, h1, h2⟩ := hp _ hq
    simp only [Mesh.positive, h1, decide_eq_true_eq, h2]
  have hn := ht.no_clash hm.toT h hp'
  obtain ⟨m', ws, h1, h2⟩ := h.done hm.toT hn hr
  exact ⟨hn, m', ws, h1, h2.cons.toSpec, h2.rep, h2.verts, ht.flip hm.toT h hp' h2⟩

/-- C74: whatever flips of unlocked elements to positively oriented tets and locks do, the mesh fills space. -/
theorem C74_run {m m' : Mesh (Pt K) V T} (hm : Consistent m) (ht : Tiles m) (hr : RecoverRun Mesh.positive m m') : Tiles m' :=
  Tiles.run hr hm.toT ht

/-- C74: a mesh that fills space never gets stuck, so everything that is said about recovery holds for it. -/
theorem C74_ready {m : Mesh (Pt K) V T} (hm : Consistent m) (ht : Tiles m) (hmap : m.trackTriMap = true) (hroom : Spacious m) :
    RecoverReady Mesh.positive m := ht.ready hm hmap hroom

/-- C74: recovering an edge in a mesh that fills space: what happens, and that the result fills space. -/
theorem C74_edge (sim : VId → VId → VId → VId → Bool) (steps : Nat) {m : Mesh (Pt K) V T} (hm : Consistent m) (ht : Tiles m)
    (hmap : m.trackTriMap = true) (hroom : Spacious m) (edge : VId × VId) (depth : Nat) :
    ∃ r, Settles (fun fuel => m.recoverAndLockEdge (Mesh.exactTests sim steps) fuel edge depth) r ∧
      EdgeOutcome (Mesh.exactTests sim steps) m edge r ∧ ∀ m' b, r = some (m', b) → Consistent m' ∧ SameVertices m m' ∧ Tiles m' := by
  have hr := C74_ready hm ht hmap hroom
  obtain ⟨r, h1, h2⟩ := C47_exact sim steps hr edge depth
  refine ⟨r, h1, h2, ?_⟩
  rintro m' (_ | _) rfl
  · obtain ⟨-, -, h3, -⟩ := h2
    exact ⟨h3.ready.consistent, h3.vertices, C74_run hm ht h3.run⟩
  · obtain ⟨-, -, -, -, -, -, h3, -⟩ := h2
    exact ⟨h3.ready.consistent, h3.vertices, C74_run hm ht h3.run⟩

/-- C74: the same for a triangle. -/
theorem C74_tri (sim : VId → VId → VId → VId → Bool) (steps : Nat) {m : Mesh (Pt K) V T} (hm : Consistent m) (ht : Tiles m)
    (hmap : m.trackTriMap = true) (hroom : Spacious m) (t : V3) :
    ∃ r, Settles (fun fuel => m.recoverAndLockTri (Mesh.exactTests sim steps) fuel t) r ∧
      TriOutcome (Mesh.exactTests sim steps) m t r ∧ ∀ m' b, r = some (m', b) → Consistent m' ∧ SameVertices m m' ∧ Tiles m' := by
  have hr := C74_ready hm ht hmap hroom
  obtain ⟨r, h1, h2⟩ := C48_exact sim steps hr t
  refine ⟨r, h1, h2, ?_⟩
  rintro m' (_ | _) rfl
  · obtain ⟨h3, -⟩ := h2
    exact ⟨h3.ready.consistent, h3.vertices, C74_run hm ht h3.run⟩
  · obtain ⟨h3, -⟩ := h2
    exact ⟨h3.ready.consistent, h3.vertices, C74_run hm ht h3.run⟩

/-- Turning on the map of triangles changes neither vertices nor tets. -/
theorem track_locks {P : Type} {m m1 : Mesh P V T} (hm : Consistent m) (h : m.setTrackTriMap true = some m1) :
    Consistent m1 ∧ m1.trackTriMap = true ∧ (∀ q, HasTet m1 q ↔ HasTet m q) ∧ m1.vertices = m.vertices ∧ m1.tets = m.tets ∧
      m1.center = m.center := by
  obtain ⟨m2, k1, k2, k3, k4, -⟩ := C28_track_exact hm
  rw [h] at k1
  cases k1
  refine ⟨k3, k2, fun q => ?_, by rw [k4], by rw [k4], by rw [k4]⟩
  rw [k4]
  exact Iff.rfl

theorem Spec.Tiles.track {m m1 : Mesh (Pt K) V T} (hm : Consistent m) (ht : Tiles m) (h : m.setTrackTriMap true = some m1) :
    Tiles m1 := by
  obtain ⟨k1, k2, k3, k4, k5, k6⟩ := track_locks hm h
  have hv : homv m1 = homv m := by
    funext v
    simp only [homv, Mesh.idx, k4, k6]
  rw [tiles_iff k1.toT.placed, hv, show HasTet m1 = HasTet m from funext fun q => propext (k3 q)]
  exact ht.fan hm.toT

/-- C74: `recover_and_lock_edges` in a mesh that fills space. -/
theorem C74_edges (sim : VId → VId → VId → VId → Bool) (steps : Nat) {m : Mesh (Pt K) V T} (hm : Consistent m) (ht : Tiles m)
    (hmap : m.trackTriMap = true) (hroom : Spacious m) {order : List (VId × VId) → List (VId × VId)}
    (ho : ∀ l e, e ∈ order l ↔ e ∈ l) (plc : List (VId × VId)) :
    ∃ r, Settles (fun fuel => m.recoverAndLockEdges (Mesh.exactTests sim steps) fuel order plc) r ∧
      EdgesOutcome (Mesh.exactTests sim steps) m (plc.map sorted2) r ∧
      ∀ m' missing, r = some (m', missing) → Consistent m' ∧ SameVertices m m' ∧ Tiles m' := by
  have hr := C74_ready hm ht hmap hroom
  obtain ⟨r, h1, h2⟩ := C65_outcome (C67_search sim steps) hr ho plc
  refine ⟨r, h1, h2, ?_⟩
  rintro m' missing rfl
  obtain ⟨h3, -⟩ := h2
  exact ⟨h3.ready.consistent, h3.vertices, C74_run hm ht h3.run⟩

/-- C74: `recover_and_lock_boundary` in a mesh that fills space; the map of triangles need not be turned on. -/
theorem C74_boundary (sim : VId → VId → VId → VId → Bool) (steps : Nat) {m : Mesh (Pt K) V T} (hm : Consistent m) (ht : Tiles m)
    (hroom : Spacious m) (tris : List V3) :
    ∃ m1 r, m.setTrackTriMap true = some m1 ∧
      Settles (fun fuel => m.recoverAndLockBoundary (Mesh.exactTests sim steps) fuel tris) r ∧
      TrisOutcome (Mesh.exactTests sim steps) m1 (tris.map sorted3) r ∧
      ∀ m' missing, r = some (m', missing) → Consistent m' ∧ SameVertices m1 m' ∧ Tiles m' := by
  obtain ⟨m1, k1, -⟩ := C28_track_exact hm
  obtain ⟨l1, l2, -, l4, l5, -⟩ := track_locks hm k1
  have ht1 := ht.track hm k1
  have hroom1 : Spacious m1 := by
    obtain ⟨nV, nT, h1, h2, h3⟩ := hroom
    exact ⟨nV, nT, by rw [← h1, Mesh.numVertices, Mesh.numVertices, l4], by rw [← h2, Mesh.numTets, Mesh.numTets, l5], h3⟩
  have hr := C74_ready l1 ht1 l2 hroom1
  obtain ⟨r, h1, h2⟩ := C66_outcome (C67_search sim steps) k1 hr tris
  refine ⟨m1, r, k1, h1, h2, ?_⟩
  rintro m' missing rfl
  obtain ⟨h3, -⟩ := h2
  exact ⟨h3.ready.consistent, h3.vertices, C74_run l1 ht1 h3.run⟩

/-! ## C75: which meshes fill space -/

/-- C75: if the tets of a consistent mesh are positively oriented, all points are in equally many of them. -/
theorem C75_layers {m : Mesh (Pt K) V T} (hm : Consistent m) (hp : AllPositive m) {p p' : Pt K} (ho : OffPlanes m p)
    (ho' : OffPlanes m p') : layers m p = layers m p' := layers_const hm hp ho ho'

/-- C75: so it fills space if a single point is in exactly one tet - and only then. -/
theorem C75_criterion {m : Mesh (Pt K) V T} (hm : Consistent m) (hp : AllPositive m) {p : Pt K} (ho : OffPlanes m p) :
    Tiles m ↔ layers m p = 1 := ⟨fun ht => ht.layer hm ho, tiles_of_layer hm hp ho⟩

/-- C75: there are such points, inside of every solid tet. -/
theorem C75_points {m : Mesh (Pt K) V T} (hm : Consistent m) (hp : AllPositive m) {a b c d : VId} (hq : HasTet m (a, b, c, d))
    (hg : GHOST ∉ [a, b, c, d]) : ∃ p, OffPlanes m p ∧ Within m (a, b, c, d) p := exists_within hm hp hq hg

/-- C75: Delaunay meshes fill space if their center is behind all triangles of the hull. -/
theorem C75_delaunay {m : Mesh (Pt K) V T} (hd : Delaunay m) (hm : Consistent m) (hp : AllPositive m) : Tiles m := hd.tiles hm hp

/-- C75: what `delaunay_from_vertices` returns fills space, with ids to spare. -/
theorem C75_build {norm : Pt K → K} {tol : K} {sim} {key : List (Pt K) → Pt K → H} {leH} {order : List TId → List TId}
    (ho : ∀ l, (order l).Perm l) (htol : 0 < tol)
    (hsim : ∀ a b c d, orient3d a b c d ≠ 0 → sim a b c d = decide (0 < orient3d a b c d)) {points : List (Pt K × V)}
    (h4 : 4 ≤ points.length) (hgp : GeneralPosition (points.map (·.1))) (hw : Wide norm tol (points.map (·.1)))
    (room : 13 * (points.length * (points.length + 1)) ≤ idMax) (nan origin : Pt K) (dt : T) :
    ∃ N m, (∀ fuel ≥ N, Mesh.delaunayFromVertices (exactGeo norm tol sim key leH) order fuel nan origin points dt = some m) ∧
      Consistent m ∧ Tiles m ∧ Spacious m := by
  obtain ⟨N, m, h1, h2, h3, -, h5, -⟩ := C73_build (V := V) (H := H) (key := key) (leH := leH) (sim := sim) ho htol hsim h4 hgp hw room nan origin dt
  have hp : AllPositive m := fun a b c d ⟨w, hw⟩ => (C64_delaunay (h1 N le_rfl)).2.1 w a b c d hw
  refine ⟨N, m, h1, h2.consistent, C75_delaunay h3 h2.consistent hp, ?_⟩
  obtain ⟨nT, hT⟩ : ∃ nT, m.numTets = some nT := ⟨_, numTets_of h2.consistent.toT rfl⟩
  have := C72_size h3 h2.consistent h5 hT
  refine ⟨_, _, h5, hT, ?_⟩
  have h6 : 0 < points.length * (points.length + 1) := by positivity
  generalize points.length * (points.length + 1) = x at *
  omega

/-- C75: so after `delaunay_from_vertices`, `recover_and_lock_boundary` ends - and panics in the listed cases only -,
it reports every triangle that it has not locked, and the mesh it returns is consistent and fills space. -/
theorem C75_boundary {norm : Pt K → K} {tol : K} {sim} {key : List (Pt K) → Pt K → H} {leH} {order : List TId → List TId}
    (ho : ∀ l, (order l).Perm l) (htol : 0 < tol)
    (hsim : ∀ a b c d, orient3d a b c d ≠ 0 → sim a b c d = decide (0 < orient3d a b c d)) {points : List (Pt K × V)}
    (h4 : 4 ≤ points.length) (hgp : GeneralPosition (points.map (·.1))) (hw : Wide norm tol (points.map (·.1)))
    (room : 13 * (points.length * (points.length + 1)) ≤ idMax) (nan origin : Pt K) (dt : T)
    (simv : VId → VId → VId → VId → Bool) (steps : Nat) (tris : List V3) :
    ∃ N m m1 r, (∀ fuel ≥ N, Mesh.delaunayFromVertices (exactGeo norm tol sim key leH) order fuel nan origin points dt = some m) ∧
      m.setTrackTriMap true = some m1 ∧
      Settles (fun fuel => m.recoverAndLockBoundary (Mesh.exactTests simv steps) fuel tris) r ∧
      TrisOutcome (Mesh.exactTests simv steps) m1 (tris.map sorted3) r ∧
      ∀ m' missing, r = some (m', missing) → Consistent m' ∧ SameVertices m1 m' ∧ Tiles m' := by
  obtain ⟨N, m, h1, h2, h3, h5⟩ := C75_build (V := V) (H := H) (key := key) (leH := leH) (sim := sim) ho htol hsim h4 hgp hw room nan origin dt
  obtain ⟨m1, r, k⟩ := C74_boundary simv steps h2 h3 h5 tris
  exact ⟨N, m, m1, r, h1, k⟩


/-! ### Examples -/

/-- The number of `FaceSide`. -/
def faceSign (m : Mesh (Pt K) V T) (p : Pt K) (q : V4) : Option K := do
  let a ← m.idxOri q.1
  let b ← m.idxOri q.2.1
  let c ← m.idxOri q.2.2.1
  return Mesh.ghostSign [q.1, q.2.1, q.2.2.1] * orient3d a b c p

omit [IsStrictOrderedRing K] in
theorem faceSide_iff {m : Mesh (Pt K) V T} {p : Pt K} {a b c : VId} (d : VId) {s : K} :
    FaceSide m (a, b, c) p s ↔ faceSign m p (a, b, c, d) = some s := by
  unfold faceSign FaceSide
  simp only [Option.bind_eq_bind, Option.bind_eq_some_iff, Option.pure_def, Option.some.injEq]
  exact ⟨fun ⟨pa, pb, pc, h1, h2, h3, h4⟩ => ⟨pa, h1, pb, h2, pc, h3, h4.symm⟩,
    fun ⟨pa, h1, pb, h2, pc, h3, h4⟩ => ⟨pa, pb, pc, h1, h2, h3, h4.symm⟩⟩

/-- The tets that contain the point. -/
def holdersCheck (m : Mesh (Pt K) V T) (p : Pt K) : List TId := m.tets.keys.filter fun k =>
  (m.tet4 (Mesh.walkerFromTetId k)).any fun q => (twelve q).all fun r => (faceSign m p r).any fun s => decide (0 < s)

/-- The point is in no plane. -/
def offPlanesCheck (m : Mesh (Pt K) V T) (p : Pt K) : Bool := m.tets.keys.all fun k =>
  (m.tet4 (Mesh.walkerFromTetId k)).all fun q => (twelve q).all fun r => decide (faceSign m p r ≠ some 0)

/-- All tets are positive. -/
def positiveCheck (m : Mesh (Pt K) V T) : Bool := m.tets.keys.all fun k =>
  (m.tet4 (Mesh.walkerFromTetId k)).all fun q => (twelve q).all fun r => (m.orient r.1 r.2.1 r.2.2.1 r.2.2.2).any fun s => decide (0 < s)

theorem all_tets {P : Type} {m : Mesh P V T} {f : V4 → Bool}
    (h : (m.tets.keys.all fun k => (m.tet4 (Mesh.walkerFromTetId k)).all fun q => (twelve q).all f) = true) {q : V4}
    (hq : HasTet m q) : f q = true := by
  obtain ⟨w, hw⟩ := hq
  obtain ⟨t, ht, -⟩ := Mesh.tet4_iff.1 hw
  have h3 : m.tet4 (Mesh.walkerFromTetId w.tet) = some (t.tet 3) := Mesh.tet4_iff.2 ⟨t, ht, rfl⟩
  have h1 := List.all_eq_true.1 h w.tet (IdMap.mem_keys.2 (by simp [ht]))
  rw [h3, Option.all_some] at h1
  exact List.all_eq_true.1 h1 q (mem_twelve.2 (tet4_same (w := Mesh.walkerFromTetId w.tet) (w' := w) rfl h3 hw))

omit [IsStrictOrderedRing K] in
theorem offPlanes_of_check {m : Mesh (Pt K) V T} {p : Pt K} (h : offPlanesCheck m p = true) : OffPlanes m p := by
  rintro ⟨a, b, c⟩ ht h0
  obtain ⟨d, hd⟩ := hasTri_iff.1 ht
  have := all_tets h hd
  rw [decide_eq_true_eq] at this
  exact this ((faceSide_iff d).1 h0)

omit [IsStrictOrderedRing K] in
theorem positive_of_check {m : Mesh (Pt K) V T} (h : positiveCheck m = true) : AllPositive m := by
  intro a b c d hq
  have := all_tets h hq
  rw [Option.any_eq_true] at this
  obtain ⟨s, h1, h2⟩ := this
  exact ⟨s, h1, by simpa using h2⟩

omit [IsStrictOrderedRing K] in
theorem layers_check {m : Mesh (Pt K) V T} {p : Pt K} {l : List TId} (h : holdersCheck m p = l) (hl : l.Nodup) :
    layers m p = l.length := by
  rw [layers, ← List.toFinset_card_of_nodup hl, ← Set.ncard_coe_finset]
  congr 1
  ext k
  rw [List.coe_toFinset, Set.mem_setOf_eq, Set.mem_setOf_eq, ← h, holdersCheck, List.mem_filter, IdMap.mem_keys, Option.any_eq_true]
  constructor
  · rintro ⟨q, h1, h2⟩
    obtain ⟨t, ht, -⟩ := Mesh.tet4_iff.1 h1
    refine ⟨by rw [show m.tets.get k = some t from ht]; rfl, q, h1, ?_⟩
    rw [List.all_eq_true]
    rintro ⟨a, b, c, d⟩ hr
    obtain ⟨s, h3, h4⟩ := h2 a b c d (mem_twelve.1 hr)
    rw [(faceSide_iff d).1 h3]
    simpa using h4
  · rintro ⟨-, q, h1, h2⟩
    refine ⟨q, h1, fun a b c d hs => ?_⟩
    have := List.all_eq_true.1 h2 _ (mem_twelve.2 hs)
    rw [Option.any_eq_true] at this
    obtain ⟨s, h3, h4⟩ := this
    exact ⟨s, (faceSide_iff d).2 h3, by simpa using h4⟩

/-- All hypotheses of `C75_criterion`: the mesh of two tets and their ghost tets.  The point is inside the first tet, and
nowhere else. -/
theorem ratA_tiles : ∃ m, ratA = some m ∧ Consistent m ∧ m.trackTriMap = true ∧ AllPositive m ∧ OffPlanes m ⟨1 / 7, 1 / 5, 1 / 4⟩ ∧
    layers m ⟨1 / 7, 1 / 5, 1 / 4⟩ = 1 ∧ Tiles m ∧ Spacious m := by
  obtain ⟨m, h1, h2⟩ := ratA_recover
  have hp := positive_of_check (of_map (f := positiveCheck) h1 (by decide +kernel))
  have ho := offPlanes_of_check (of_map (f := fun m => offPlanesCheck m ⟨1 / 7, 1 / 5, 1 / 4⟩) h1 (by decide +kernel))
  have hl := layers_check (of_map (f := fun m => holdersCheck m ⟨1 / 7, 1 / 5, 1 / 4⟩) (b := [0]) h1 (by decide +kernel)) (by decide)
  exact ⟨m, h1, h2.consistent, h2.tracked, hp, ho, hl, (C75_criterion h2.consistent hp ho).2 hl, 5, 8,
    of_map (f := Mesh.numVertices) h1 (by decide +kernel), of_map (f := Mesh.numTets) h1 (by decide +kernel), by decide⟩

/-- All hypotheses of `C74_flip`: the triangle between the two tets is replaced by an edge. -/
example : ∃ m old new taken r, ratA = some m ∧ Consistent m ∧ Tiles m ∧ Room m ∧ FlipAt m old new taken r ∧
    old = [(1, 2, 3, 0), (2, 1, 3, 4)] ∧ ∀ q ∈ new, ∃ s, m.orient q.1 q.2.1 q.2.2.1 q.2.2.2 = some s ∧ 0 < s := by
  obtain ⟨m, h1, h2, h3, -, -, -, h4, h5⟩ := ratA_tiles
  have k1 := of_map (f := fun m => m.tet4 ⟨0, 8⟩) (b := some (1, 2, 3, 0)) h1 (by decide +kernel)
  obtain ⟨o, k2, k3⟩ := Option.bind_eq_some_iff.1
    (of_map (f := fun m => (m.toAdj ⟨0, 8⟩).bind m.fourth) (b := some 4) h1 (by decide +kernel))
  have k4 : ¬ LockedTri m (1, 2, 3) := by
    rintro ⟨w, h6, h7⟩
    obtain ⟨t, ht, -⟩ := Mesh.tri_iff.1 h6
    have := List.all_eq_true.1 (of_map (f := fun m => m.tets.keys.all fun k => (List.finRange 12).all fun e =>
      decide (m.triLocked ⟨k, e⟩ ≠ some true)) (b := true) h1 (by decide +kernel)) w.tet (IdMap.mem_keys.2 (by simp [ht]))
    exact of_decide_eq_true (List.all_eq_true.1 this w.edge (List.mem_finRange _)) h7
  refine ⟨m, _, _, _, _, h1, h2, h4, ⟨8, 14, of_map (f := Mesh.numTets) h1 (by decide +kernel),
    of_map (f := Mesh.numEdges) h1 (by decide +kernel), by decide, by decide⟩, .flip23 k1 k2 k3 k4, rfl, ?_⟩
  have := of_map (f := fun m => [(2, 1, 0, 4), (1, 3, 0, 4), (3, 2, 0, 4)].all fun q : V4 =>
    (m.orient q.1 q.2.1 q.2.2.1 q.2.2.2).any fun s => decide (0 < s)) (b := true) h1 (by decide +kernel)
  intro q hq
  obtain ⟨s, i1, i2⟩ := (Option.any_eq_true _ _).1 (List.all_eq_true.1 this q hq)
  exact ⟨s, i1, by simpa using i2⟩

/-- All hypotheses of `C74_edge`. -/
example : ∃ m, ratA = some m ∧ Consistent m ∧ Tiles m ∧ m.trackTriMap = true ∧ Spacious m ∧
    (m.recoverAndLockEdge exRecover 40 (0, 4) 1).map (fun r => (r.1.numTets, r.2)) = some (some 9, true) := by
  obtain ⟨m, h1, h2, h3, -, -, -, h4, h5⟩ := ratA_tiles
  exact ⟨m, h1, h2, h4, h3, h5, of_map (f := fun m => (m.recoverAndLockEdge exRecover 40 (0, 4) 1).map
    (fun r => (r.1.numTets, r.2))) h1 (by decide +kernel)⟩

/-- All hypotheses of `C74_boundary`. -/
example : ∃ m, ratA = some m ∧ Consistent m ∧ Tiles m ∧ Spacious m ∧
    (m.recoverAndLockBoundary exRecover 40 [(0, 4, 1), (1, 2, 0), (1, 2, 3)]).map (fun r => (r.1.numTets, r.2)) =
      some (some 8, [(0, 1, 4)]) := by
  obtain ⟨m, h1, h2, h3, -, -, -, h4, h5⟩ := ratA_tiles
  exact ⟨m, h1, h2, h4, h5, of_map (f := fun m =>
    (m.recoverAndLockBoundary exRecover 40 [(0, 4, 1), (1, 2, 0), (1, 2, 3)]).map (fun r => (r.1.numTets, r.2))) h1
    (by decide +kernel)⟩

/-- All hypotheses of `C75_delaunay`. -/
example : ∃ m, rat5 = some m ∧ Consistent m ∧ Delaunay m ∧ AllPositive m := by
  obtain ⟨m, h1, h2, h3⟩ := rat5_delaunay
  exact ⟨m, h1, h2.consistent, h3, positive_of_check (of_map (f := positiveCheck) h1 (by decide +kernel))⟩

end Tet
