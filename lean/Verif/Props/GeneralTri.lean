import Verif.Proofs.GeneralTri
import Verif.Props.General

/-!
# C78, C79: triangles in a mesh that fills space, in general position
-/

namespace Tet
open Spec
variable {K V T H : Type} [Field K] [LinearOrder K] [IsStrictOrderedRing K]

/-! ## C78 -/

/-- C78: in a mesh that fills space and whose vertices are in general position, `tri_intersections_raw` lists exactly the
edges that go through a triangle whose edges are in the mesh, each of them once.  The list is empty iff the triangle is
in the mesh. -/
theorem C78_search {m : Mesh (Pt K) V T} (hm : Consistent m) (ht : Tiles m) (hf : NoFlat m) {t : V3} (ha : Solid m t.1)
    (hb : Solid m t.2.1) (hc : Solid m t.2.2) (he : ∀ e ∈ triEdges t, HasEdge m e.1 e.2) :
    ∃ l, Settles (fun fuel => (m.triIntersections fuel t).map (·.map (·.edge))) (some l) ∧ ThroughTri m t l ∧
      (l = [] ↔ HasTri m t) :=
  search_tri ⟨hm, ht, hf⟩ ⟨ha, hb, hc, he⟩

/-- C78: so three vertices that are joined by edges are a triangle of the mesh iff no edge goes through. -/
theorem C78_tri {m : Mesh (Pt K) V T} (hm : Consistent m) (ht : Tiles m) (hf : NoFlat m) {t : V3} (ha : Solid m t.1)
    (hb : Solid m t.2.1) (hc : Solid m t.2.2) (he : ∀ e ∈ triEdges t, HasEdge m e.1 e.2) :
    HasTri m t ↔ ∀ e, ¬ CrossesTri m t e := by
  obtain ⟨l, -, hw, hl⟩ := C78_search hm ht hf ha hb hc he
  rw [← hl]
  constructor
  · rintro rfl e hc
    simpa using hw.all e hc
  · intro h
    cases l with
    | nil => rfl
    | cons e l => exact absurd (hw.crossing e List.mem_cons_self) (h _)

/-! ## C79 -/

theorem room_steps {m : Mesh (Pt K) V T} {steps : Nat} (hr : RecoverReady Mesh.positive m) (hsteps : 12 * idMax ≤ steps) :
    ∃ n, m.numTets = some n ∧ 12 * n ≤ steps := by
  have : Room m := by
    by_contra hc
    exact hr.never m (.refl _) (.inr hc)
  obtain ⟨nT, nE, k1, -, k2, -⟩ := this
  exact ⟨nT, k1, by omega⟩

theorem tri_result {sim : VId → VId → VId → VId → Bool} {steps : Nat} {m : Mesh (Pt K) V T} (hg : Good m)
    (hsim : IsSim m.idxOri sim) {t : V3} (hcr : Corners m t) (hsteps : 12 * idMax ≤ steps) {r : Option (Mesh (Pt K) V T × Bool)}
    (h : TriOutcome (Mesh.exactTests sim steps) m t r) : TriResult m t r := by
  have hcr' : ∀ {m1 : Mesh (Pt K) V T}, RecoverRun Mesh.positive m m1 → Good m1 ∧ SameVertices m m1 ∧ Corners m1 t := by
    intro m1 h1
    obtain ⟨g1, g2, g3⟩ := hg.run h1
    exact ⟨g1, g2, ⟨(g3 _).2 hcr.solid.1, (g3 _).2 hcr.solid.2.1, (g3 _).2 hcr.solid.2.2⟩, hcr.ne⟩
  have ends : ∀ {m1 : Mesh (Pt K) V T}, Corners m1 t → ∀ e ∈ triEdges t, Solid m1 e.1 ∧ Solid m1 e.2 ∧ e.1 ≠ e.2 := by
    rintro m1 ⟨⟨s1, s2, s3⟩, n1, n2, n3⟩ e he
    simp only [triEdges, List.mem_cons, List.not_mem_nil, or_false] at he
    rcases he with rfl | rfl | rfl
    · exact ⟨s1, s2, n1⟩
    · exact ⟨s2, s3, n2⟩
    · exact ⟨s3, s1, n3⟩
  have has : ∀ {m : Mesh (Pt K) V T} {a b}, LockedEdge m a b → HasEdge m a b := fun ⟨i, ue, q1, q2, _⟩ => ⟨i, ue, q1, q2⟩
  have sides : ∀ {m1 : Mesh (Pt K) V T}, Consistent m1 → HasTri m1 t → ∀ e ∈ triEdges t, HasEdge m1 e.1 e.2 := by
    intro m1 h1 h2 e he
    obtain ⟨a, b, c⟩ := t
    simp only [triEdges, List.mem_cons, List.not_mem_nil, or_false] at he
    rcases he with rfl | rfl | rfl
    · exact hasTri_edge h1.toT h2
    · exact hasTri_edge h1.toT (c := a) (hasTri_six3 h1.toT h2 (by simp [six3]))
    · exact hasTri_edge h1.toT (c := b) (hasTri_six3 h1.toT h2 (by simp [six3]))
  obtain _ | ⟨m', _ | _⟩ := r
  · obtain ⟨m1, h1, h2⟩ := h
    obtain ⟨g1, g2, g3⟩ := hcr' h1.run
    rcases h2 with ⟨e, he, h2⟩ | ⟨h2, h3⟩
    · obtain ⟨n, hn, hns⟩ := room_steps h1.ready hsteps
      obtain ⟨s0, s1, s2⟩ := ends g3 e he
      exact absurd h2 (no_panic g1 s0 s1 s2 hn hns)
    · obtain ⟨v, hv⟩ := tri_panics g1 (isSim_same hsim g2) h1.ready g3.solid.1 g3.solid.2.1 g3.solid.2.2 h2 h3
      exact ⟨m1, v, h1.run, h2, hv⟩
  · obtain ⟨h1, m1, h2, h3⟩ := h
    obtain ⟨g1, g2, g3⟩ := hcr' h1.run
    obtain ⟨f1, f2, f3⟩ := hcr' h2.run
    have key : Obstructed m' t := by
      rcases h3 with ⟨e, he, l, g, k4, k5, k6⟩ | ⟨h3, l, e, k4, k5, k6⟩
      · obtain ⟨s0, s1, s2⟩ := ends f3 e he
        obtain ⟨n, hn, hns⟩ := room_steps h2.ready hsteps
        obtain ⟨l', j1, j2, -⟩ := search_all f1.cons f1.tiles f1.noFlat s0 s1 s2 hn hns
        obtain rfl : l = l'.map .tri := Option.some.inj (k4.unique j1)
        obtain ⟨s, j3, rfl⟩ := List.mem_map.1 k5
        refine .inl ⟨e, he, s, k6, ?_⟩
        rw [sameVertices_tri g2, ← sameVertices_tri f2]
        exact (j2.crossed s j3).2
      · obtain ⟨l', j1, j2, -⟩ := search_tri f1 ⟨f3.solid.1, f3.solid.2.1, f3.solid.2.2, fun e he => has (h3 e he)⟩
        obtain rfl : l = l' := Option.some.inj (k4.unique j1)
        refine .inr ⟨e, k6, ?_⟩
        rw [sameVertices_tri g2, ← sameVertices_tri f2]
        exact (j2.crossing e k5).2
    refine ⟨g1.cons, g2, g1.tiles, ?_, by simp, fun _ => key⟩
    simp only [Bool.false_eq_true, false_iff]
    intro hT
    rcases key with ⟨e, he, s, k⟩ | ⟨e, k⟩
    · obtain ⟨s0, s1, s2⟩ := ends g3 e he
      exact (C76_edge g1.cons g1.tiles g1.noFlat s0 s1 s2).1 (sides g1.cons hT e he) _ k
    · exact g1.no_cross ⟨g3.solid.1, g3.solid.2.1, g3.solid.2.2, sides g1.cons hT⟩ hT e k
  · obtain ⟨h1, h2, h3, h4⟩ := h
    obtain ⟨g1, g2, g3⟩ := hcr' h1.run
    obtain ⟨w, hw, hlk⟩ := h2
    exact ⟨g1.cons, g2, g1.tiles, by simp only [true_iff]; exact ⟨w, hw⟩, fun _ => ⟨⟨w, hw, hlk⟩, h3, h4⟩, by simp⟩

/-- C79: in such a mesh `recover_and_lock_tri` returns true iff the triangle is in the mesh that it leaves, and otherwise
something is in the way of one of its edges, or of the triangle.  It panics only if the edges of the triangle have been
recovered and an edge to the ghost vertex goes through the triangle. -/
theorem C79_tri {sim : VId → VId → VId → VId → Bool} {steps : Nat} {m : Mesh (Pt K) V T} (hm : Consistent m) (ht : Tiles m)
    (hf : NoFlat m) (hsim : IsSim m.idxOri sim) (hmap : m.trackTriMap = true) (hroom : Spacious m) {t : V3}
    (hcr : Corners m t) (hsteps : 12 * idMax ≤ steps) :
    ∃ r, Settles (fun fuel => m.recoverAndLockTri (Mesh.exactTests sim steps) fuel t) r ∧ TriResult m t r := by
  obtain ⟨r, h2, h3, -⟩ := C74_tri sim steps hm ht hmap hroom t
  exact ⟨r, h2, tri_result ⟨hm, ht, hf⟩ hsim hcr hsteps h3⟩

/-- C79: the same for `recover_and_lock_boundary`. -/
theorem C79_boundary {sim : VId → VId → VId → VId → Bool} {steps : Nat} {m : Mesh (Pt K) V T} (hm : Consistent m) (ht : Tiles m)
    (hf : NoFlat m) (hsim : IsSim m.idxOri sim) (hroom : Spacious m) {tris : List V3} (hcr : ∀ t ∈ tris, Corners m t)
    (hsteps : 12 * idMax ≤ steps) :
    ∃ m1 r, m.setTrackTriMap true = some m1 ∧
      Settles (fun fuel => m.recoverAndLockBoundary (Mesh.exactTests sim steps) fuel tris) r ∧ TrisResult m1 (tris.map sorted3) r := by
  obtain ⟨m1, r, k1, k2, k3, k4⟩ := C74_boundary sim steps hm ht hroom tris
  refine ⟨m1, r, k1, k2, ?_⟩
  obtain ⟨l1, l2, l3, l4, l5, l6⟩ := track_locks hm k1
  have ht1 := ht.track hm k1
  have hi : m1.idxOri = m.idxOri := by
    funext v
    simp only [Mesh.idxOri, Mesh.idx, l4, l6]
  have hf1 : NoFlat m1 := by
    intro a b c d hn ho
    refine hf a b c d hn ?_
    rw [Mesh.orient, hi] at ho
    exact ho
  have hg1 : Good m1 := ⟨l1, ht1, hf1⟩
  have hin : ∀ v, InMesh m v → InMesh m1 v := by
    rintro v ⟨w, hw⟩
    obtain ⟨m2, q1, -, -, q2, -⟩ := C28_track_exact hm
    rw [k1] at q1
    cases q1
    rw [q2]
    exact ⟨w, hw⟩
  have hcr1 : ∀ t ∈ tris.map sorted3, Corners m1 t := by
    intro t ht
    obtain ⟨⟨a, b, c⟩, h1, rfl⟩ := List.mem_map.1 ht
    obtain ⟨⟨⟨s1, g1⟩, ⟨s2, g2⟩, ⟨s3, g3⟩⟩, n1, n2, n3⟩ := hcr _ h1
    have s1 := hin _ s1
    have s2 := hin _ s2
    have s3 := hin _ s3
    have := sorted3_mem a b c
    simp only [six3, List.mem_cons, List.not_mem_nil, or_false] at this
    rcases this with h | h | h | h | h | h <;> rw [h] <;> refine ⟨⟨⟨?_, ?_⟩, ⟨?_, ?_⟩, ?_, ?_⟩, ?_, ?_, ?_⟩ <;>
      first | assumption | exact Ne.symm (by assumption)
  have now : ∀ {m2 : Mesh (Pt K) V T} {t}, t ∈ tris.map sorted3 → RecoverRun Mesh.positive m1 m2 → Good m2 ∧ IsSim m2.idxOri sim ∧ Corners m2 t := by
    intro m2 t ht h
    obtain ⟨g1, g2, g3⟩ := hg1.run h
    obtain ⟨⟨s1, s2, s3⟩, ne⟩ := hcr1 t ht
    exact ⟨g1, isSim_same (by rw [hi]; exact hsim) g2, ⟨(g3 _).2 s1, (g3 _).2 s2, (g3 _).2 s3⟩, ne⟩
  obtain _ | ⟨m', missing⟩ := r
  · obtain ⟨m2, h1, t, h2, h3⟩ := k3
    obtain ⟨g1, g2, g3⟩ := now h2 h1.run
    exact ⟨m2, t, h2, h1.run, tri_result g1 g2 g3 hsteps h3⟩
  · obtain ⟨i1, i2, i3⟩ := k4 _ _ rfl
    obtain ⟨j1, j2, j3⟩ := k3
    refine ⟨i1, i2, i3, j3, fun t ht => ?_⟩
    obtain ⟨q1, m2, m3, q2, q3, q4⟩ := j2 t ht
    obtain ⟨g1, g2, g3⟩ := now q1 q2.run
    obtain ⟨-, -, -, f1, -, f2⟩ := tri_result g1 g2 g3 hsteps q3
    refine ⟨q1, m3, q2.run.trans' q3.1.run, q4.run, ?_, f2 rfl⟩
    simpa using f1

/-! ### After `delaunay_from_vertices` -/

/-- Points with different indices are points of the list, with multiplicity. -/
theorem subperm_points {ps : List (Pt K)} {l : List (Nat × Pt K)} (hn : (l.map (·.1)).Nodup) (h : ∀ x ∈ l, ps[x.1]? = some x.2) :
    (l.map (·.2)).Subperm ps := by
  cases l with
  | nil => exact List.nil_subperm
  | cons x0 l =>
    generalize hl : x0 :: l = l' at hn h
    let f : Nat → Pt K := fun i => (ps[i]?).getD x0.2
    have h1 : (List.range ps.length).map f = ps := by
      refine List.ext_getElem (by simp) fun i h1 h2 => ?_
      simp [f, h2]
    have h2 : l'.map (·.2) = (l'.map (·.1)).map f := by
      rw [List.map_map]
      refine List.map_congr_left fun x hx => ?_
      simp [f, h x hx]
    rw [← h1, h2]
    have hsub : l'.map (·.1) ⊆ List.range ps.length := by
      intro i hi
      obtain ⟨x, hx, rfl⟩ := List.mem_map.1 hi
      exact List.mem_range.2 (List.getElem?_eq_some_iff.1 (h x hx)).1
    obtain ⟨l2, p1, p2⟩ := List.subperm_of_subset hn hsub
    exact ⟨l2.map f, p1.map f, p2.map f⟩

/-- No four vertices are in a plane if the points are in general position and the center is in no plane of three vertices. -/
theorem noFlat_of {points : List (Pt K × V)} {m : Mesh (Pt K) V T} (hgp : GeneralPosition (points.map (·.1)))
    (hp : ∀ i : Nat, (m.vertices.get i).map (fun x => (x.position, x.value)) = points[i]?) (hc : OffCenter m) : NoFlat m := by
  intro a b c d hn ho
  by_cases hg : GHOST ∈ [a, b, c, d]
  · exact hc.of_mem hn hg ho
  · have ho' := ho
    unfold Mesh.orient at ho'
    simp only [Option.bind_eq_bind, Option.bind_eq_some_iff] at ho'
    obtain ⟨pa, ia, pb, ib, pc, ic, pd, id, hx⟩ := ho'
    have hx : Mesh.ghostSign [a, b, c, d] * orient3d pa pb pc pd = 0 := Option.some.inj hx
    have at_ : ∀ {v p}, v ∈ [a, b, c, d] → m.idxOri v = some p → (points.map (·.1))[v]? = some p := by
      intro v p hv h
      rw [Mesh.idxOri, if_neg (by rintro rfl; exact hg hv), Mesh.idx] at h
      rw [List.getElem?_map, ← hp v, Option.map_map]
      exact h
    refine hgp.planes [pa, pb, pc, pd] rfl (subperm_points (l := [(a, pa), (b, pb), (c, pc), (d, pd)]) hn ?_) (orient_coplanar ?_)
    · intro x hx
      simp only [List.mem_cons, List.not_mem_nil, or_false] at hx
      rcases hx with rfl | rfl | rfl | rfl
      exacts [at_ (by simp) ia, at_ (by simp) ib, at_ (by simp) ic, at_ (by simp) id]
    · rwa [Mesh.ghostSign, if_neg hg, one_mul] at hx

/-- C79: `recover_and_lock_boundary` after `delaunay_from_vertices`, for points in general position, if the center is in
no plane of three of them. -/
theorem C79_build {norm : Pt K → K} {tol : K} {sim} {key : List (Pt K) → Pt K → H} {leH} {order : List TId → List TId}
    (ho : ∀ l, (order l).Perm l) (htol : 0 < tol)
    (hsim : ∀ a b c d, orient3d a b c d ≠ 0 → sim a b c d = decide (0 < orient3d a b c d)) {points : List (Pt K × V)}
    (h4 : 4 ≤ points.length) (hgp : GeneralPosition (points.map (·.1))) (hw : Wide norm tol (points.map (·.1)))
    (room : 13 * (points.length * (points.length + 1)) ≤ idMax) (nan origin : Pt K) (dt : T) :
    ∃ N m, (∀ fuel ≥ N, Mesh.delaunayFromVertices (exactGeo norm tol sim key leH) order fuel nan origin points dt = some m) ∧
      (OffCenter m → ∀ simv, IsSim m.idxOri simv → ∀ steps, 12 * idMax ≤ steps → ∀ tris : List V3,
        (∀ t ∈ tris, (t.1 < points.length ∧ t.2.1 < points.length ∧ t.2.2 < points.length) ∧ t.1 ≠ t.2.1 ∧ t.2.1 ≠ t.2.2 ∧ t.2.2 ≠ t.1) →
        ∃ m1 r, m.setTrackTriMap true = some m1 ∧
          Settles (fun fuel => m.recoverAndLockBoundary (Mesh.exactTests simv steps) fuel tris) r ∧ TrisResult m1 (tris.map sorted3) r) := by
  obtain ⟨N, m, h1, h2, h3, h5, -, h6⟩ := C73_build (V := V) (H := H) (key := key) (leH := leH) (sim := sim) ho htol hsim h4 hgp hw room nan origin dt
  obtain ⟨N', m', k1, k2, k3, k4⟩ := C75_build (V := V) (H := H) (key := key) (leH := leH) (sim := sim) ho htol hsim h4 hgp hw room nan origin dt
  obtain rfl : m = m' := Option.some.inj ((h1 (max N N') (le_max_left _ _)).symm.trans (k1 (max N N') (le_max_right _ _)))
  refine ⟨N, m, h1, fun hoff simv hs steps hsteps tris ht => C79_boundary k2 k3 (noFlat_of hgp h6 hoff) hs k4 (fun t h => ?_) hsteps⟩
  obtain ⟨⟨l1, l2, l3⟩, n⟩ := ht t h
  have hG : points.length ≤ GHOST := by
    have : GHOST = idMax := rfl
    nlinarith
  have sol : ∀ {v : VId}, v < points.length → Solid m v := fun hv => ⟨(h5 _).2 (.inl hv), fun h => absurd (h ▸ hv) (not_lt.2 hG)⟩
  exact ⟨⟨sol l1, sol l2, sol l3⟩, n⟩

/-! ### Panics -/

/-- Recovering an edge that is in the mesh locks it. -/
theorem edge_there {sim : VId → VId → VId → VId → Bool} {steps : Nat} {m : Mesh (Pt K) V T} (hg : Good m) {e : VId × VId}
    (h0 : Solid m e.1) (h1 : Solid m e.2) (hv : e.1 ≠ e.2) (he : HasEdge m e.1 e.2) {n : Nat} (hn : m.numTets = some n)
    (hsteps : 12 * n ≤ steps) (depth : Nat) :
    ∃ m', Settles (fun fuel => m.recoverAndLockEdge (Mesh.exactTests sim steps) fuel e depth) (some (m', true)) ∧ Locks m m' ∧
      m'.numTets = some n := by
  obtain ⟨l, ⟨N, hN⟩, -, hl⟩ := search_all hg.cons hg.tiles hg.noFlat h0 h1 hv hn hsteps
  obtain rfl := hl.2 he
  obtain ⟨r, ⟨N', hN'⟩, hr⟩ := walkerFromEdge_does hg.cons e
  match r, hr with
  | none, hr => exact absurd h0 hr
  | some none, hr => exact absurd he (hr (hg.tiles.star hg.cons _))
  | some (some w), hr =>
    obtain ⟨i, ue, q1, q2, q3⟩ := hg.cons.edgePtr w e.1 e.2 hr
    obtain ⟨m', k1, k2, k3, k4, k5, -⟩ := lockEdgeAt_ok hg.cons.toT (w := w) (a := e.1) (b := e.2) hr
    refine ⟨m', ⟨max N N', fun fuel hf => ?_⟩, k5.locks k2 k3 k4, ?_⟩
    · have j1 := hN fuel (le_trans (le_max_left _ _) hf)
      have j2 := hN' fuel (le_trans (le_max_right _ _) hf)
      simp only [List.map_nil] at j1
      simp only [Mesh.recoverAndLockEdge, show (Mesh.exactTests sim steps : RecoverTests (Pt K) V T).edgeInters fuel m e = some [] from j1,
        Option.bind_eq_bind, Option.bind_some, List.reverse_nil, Mesh.removeAll, if_true, j2, k1]
      rfl
    · unfold Mesh.lockEdgeAt at k1
      simp only [q1, Option.bind_eq_bind, Option.bind_some, q2, Option.isSome_some, if_true] at k1
      cases k1
      exact hn

/-- C79: it does panic if the only edge through the triangle is one to the ghost vertex, and the search finds it from the
ghost vertex: that depends on the order of the triangle's vertices. -/
theorem C79_panics {sim : VId → VId → VId → VId → Bool} {steps : Nat} {m : Mesh (Pt K) V T} (hm : Consistent m) (ht : Tiles m)
    (hf : NoFlat m) (hmap : m.trackTriMap = true) {t : V3} (hcr : Corners m t) (he : ∀ e ∈ triEdges t, HasEdge m e.1 e.2) {v : VId}
    (hq : HasTet m (t.1, t.2.1, GHOST, v)) (hc : CrossesTri m t (GHOST, v))
    (honly : ∀ e, CrossesTri m t e → e = (GHOST, v) ∨ e = (v, GHOST)) {n : Nat} (hn : m.numTets = some n) (hsteps : 12 * n ≤ steps) :
    Settles (fun fuel => m.recoverAndLockTri (Mesh.exactTests sim steps) fuel t) none := by
  have hg : Good m := ⟨hm, ht, hf⟩
  have edge : ∀ e ∈ triEdges t, ∀ m1 : Mesh (Pt K) V T, RecoverRun Mesh.positive m m1 → (∀ q, HasTet m1 q ↔ HasTet m q) →
      m1.numTets = some n →
      ∃ m2, (∃ N, ∀ fuel ≥ N, ∀ edges, Mesh.recoverEdgesOf (Mesh.exactTests sim steps) fuel (e :: edges) m1 =
        Mesh.recoverEdgesOf (Mesh.exactTests sim steps) fuel edges m2) ∧ RecoverRun Mesh.positive m m2 ∧
        (∀ q, HasTet m2 q ↔ HasTet m q) ∧ m2.numTets = some n := by
    intro e hE m1 hr hs hn1
    obtain ⟨g1, g2, g3⟩ := hg.run hr
    have hE1 : HasEdge m1 e.1 e.2 := by
      have := he e hE
      rw [hm.toT.hasEdge_tet] at this
      rw [g1.cons.toT.hasEdge_tet]
      simpa only [hs] using this
    have hends : Solid m e.1 ∧ Solid m e.2 ∧ e.1 ≠ e.2 := by
      obtain ⟨⟨s1, s2, s3⟩, n1, n2, n3⟩ := hcr
      simp only [triEdges, List.mem_cons, List.not_mem_nil, or_false] at hE
      rcases hE with rfl | rfl | rfl
      exacts [⟨s1, s2, n1⟩, ⟨s2, s3, n2⟩, ⟨s3, s1, n3⟩]
    obtain ⟨m2, ⟨N, hN⟩, k2, k3⟩ := edge_there (sim := sim) g1 ((g3 _).2 hends.1) ((g3 _).2 hends.2.1) hends.2.2 hE1 hn1 hsteps 1
    refine ⟨m2, ⟨N, fun fuel hf edges => ?_⟩, hr.trans' (.lock k2 (.refl _)), fun q => (k2.tets q).trans (hs q), k3⟩
    simp only [Mesh.recoverEdgesOf, Mesh.recoverEdgeDepths, hN fuel hf, Option.bind_eq_bind, Option.bind_some, if_true]
    rfl
  obtain ⟨m1, ⟨N1, k1⟩, r1, s1, n1⟩ := edge (t.1, t.2.1) (by simp [triEdges]) m (.refl _) (fun _ => .rfl) hn
  obtain ⟨m2, ⟨N2, k2⟩, r2, s2, n2⟩ := edge (t.2.1, t.2.2) (by simp [triEdges]) m1 r1 s1 n1
  obtain ⟨m3, ⟨N3, k3⟩, r3, s3, n3⟩ := edge (t.2.2, t.1) (by simp [triEdges]) m2 r2 s2 n2
  obtain ⟨g1, g2, g3⟩ := hg.run r3
  have hedge : ∀ a b, HasEdge m3 a b ↔ HasEdge m a b := by
    intro a b
    rw [hm.toT.hasEdge_tet, g1.cons.toT.hasEdge_tet]
    simp only [s3]
  have hcross : ∀ e, CrossesTri m3 t e ↔ CrossesTri m t e := by
    intro e
    rw [CrossesTri, CrossesTri, hedge, sameVertices_tri g2]
  have ho : Outlined m3 t := ⟨(g3 _).2 hcr.solid.1, (g3 _).2 hcr.solid.2.1, (g3 _).2 hcr.solid.2.2, fun e h => (hedge _ _).2 (he e h)⟩
  have hno : ¬ HasTri m3 t := fun h => g1.no_cross ho h _ ((hcross _).2 hc)
  -- the search
  obtain ⟨l, hs, hw, hl⟩ := search_tri g1 ho
  obtain ⟨r, hr, hi⟩ := triIntersections_does g1.cons t
  obtain rfl := hs.unique hr
  obtain ⟨-, -, hhead, -⟩ := hi
  obtain ⟨N4, hN4⟩ := hs
  have hl' : l = [(GHOST, v)] := by
    cases l with
    | nil => exact absurd (hl.1 rfl) hno
    | cons e l =>
      obtain ⟨c, d, h1, h2⟩ := hhead e l rfl
      have hev : e = (GHOST, v) := by
        rcases honly e ((hcross e).1 (hw.crossing e List.mem_cons_self)) with h | h
        · exact h
        · exfalso
          rw [h] at h2
          cases h2
          rw [s3] at h1
          have p1 := ht.oriented hm.toT _ _ _ _ hq
          have p2 := ht.oriented hm.toT _ _ _ _ h1
          exact p1.2 (HasTet.same h1 (mem_twelve.1 (by simp [twelve])))
      cases l with
      | nil => rw [hev]
      | cons f l =>
        exfalso
        have h3 := (List.pairwise_cons.1 hw.once).1 f List.mem_cons_self
        rcases honly f ((hcross f).1 (hw.crossing f (by simp))) with h | h
        · exact h3.1 (h.trans hev.symm)
        · exact h3.2 (by rw [h, hev]; rfl)
  subst hl'
  obtain ⟨w, hw1, hw2⟩ := C29_tracked g1.cons (by rw [g2.2.2.1]; exact hmap) t
  have hw2 : w = none := by
    rcases hw2 with ⟨x, -, h⟩ | ⟨h, -⟩
    · exact absurd ⟨x, h⟩ hno
    · exact h
  subst hw2
  refine ⟨max (max N1 N2) (max N3 N4), fun fuel hf => ?_⟩
  have u1 := k1 fuel (le_trans (le_trans (le_max_left _ _) (le_max_left _ _)) hf)
  have u2 := k2 fuel (le_trans (le_trans (le_max_right _ _) (le_max_left _ _)) hf)
  have u3 := k3 fuel (le_trans (le_trans (le_max_left _ _) (le_max_right _ _)) hf)
  have u4 := hN4 fuel (le_trans (le_trans (le_max_right _ _) (le_max_right _ _)) hf)
  have u5 : m3.walkerFromEdge fuel (GHOST, v) = none := by
    have : m3.vertices.get GHOST = none := g1.cons.stored.1.get_max
    simp [Mesh.walkerFromEdge, Mesh.vertexTargetWalkers, Mesh.walkerFromVertex, this]
  have u6 : Mesh.recoverEdgesOf (Mesh.exactTests sim steps) fuel [(t.1, t.2.1), (t.2.1, t.2.2), (t.2.2, t.1)] m = some (m3, true) := by
    rw [u1, u2, u3, Mesh.recoverEdgesOf]
  simp only [Mesh.recoverAndLockTri, u6, Option.bind_eq_bind, Option.bind_some, if_true, Mesh.recoverTriDepths, hw1,
    show (Mesh.exactTests sim steps : RecoverTests (Pt K) V T).triInters fuel m3 t = some [(GHOST, v)] from u4, List.reverse_cons, List.reverse_nil,
    List.nil_append, List.map_cons, List.map_nil, Mesh.removeAll, Mesh.removeStubborn, Mesh.removeOne, u5, Option.bind_none]

/-! ### Examples -/

/-- A tet, and a vertex inside that is not yet in a tet. -/
def ratIn : Option (Mesh (Pt ℚ) Nat Unit) := rat5.bind fun m =>
  (m.vertices.insert (Vertex.new invalidWalker ⟨29 / 100, 8 / 25, 33 / 100⟩ 4)).map fun r =>
    { m with vertices := r.1, center := ⟨1 / 5, 1 / 4, 3 / 10⟩ }

/-- The tet split at the vertex. -/
def ratSplit : Option (Mesh (Pt ℚ) Nat Unit) := (ratIn.bind fun m =>
  (m.flip14Unchecked (Mesh.walkerFromTetId 0) 4).map (·.1)).bind fun m => m.setTrackTriMap true

/-- One of the four tets removed, by a flip with the ghost tet behind it: a mesh with a dent. -/
def ratDent : Option (Mesh (Pt ℚ) Nat Unit) := ratSplit.bind fun m => (m.flip23Unchecked ⟨0, 8⟩).map (·.1)

theorem ratIn_ok : ∃ m, ratIn = some m ∧ Consistent m := by
  obtain ⟨m, h1, h2, -⟩ := C14_new (fun a b c d => decide (0 < orient3d a b c d)) Pt.centroid4 (⟨0, 0, 0⟩ : Pt ℚ)
    (⟨0, 0, 0⟩, 0) (⟨1, 0, 0⟩, 1) (⟨0, 1, 0⟩, 2) (⟨0, 0, 1⟩, 3) ()
  have h1 : rat5 = some m := h1
  have h3 : ratIn.isSome = true := by decide +kernel
  obtain ⟨m', h3⟩ := Option.isSome_iff_exists.1 h3
  have h4 := h3
  rw [ratIn, h1, Option.bind_some] at h4
  obtain ⟨⟨v1, i1⟩, h5, h4⟩ := Option.map_eq_some_iff.1 h4
  refine ⟨m', h3, ?_⟩
  have hc := (h2.toT.addVertex h5).1
  rw [← h4]
  exact ConsistentT.toSpec ⟨hc.stored, hc.adj, hc.distinct, hc.vref, hc.vlive, hc.eptr, hc.eunique, hc.eused,
      hc.tunique, hc.ring, hc.locks, hc.tsound, hc.tcomplete⟩

theorem ratSplit_ok : ∃ m, ratSplit = some m ∧ Consistent m ∧ m.trackTriMap = true := by
  obtain ⟨m, h1, h2⟩ := ratIn_ok
  obtain ⟨m', _, _, _, _, h3, h4, -⟩ := C18_flip14 h2 (k := 0) (v := 4)
    (of_map (f := fun m => m.tet4 (Mesh.walkerFromTetId 0)) (b := some (0, 1, 3, 2)) h1 (by decide +kernel))
    (fun h => by
      have := of_map (f := fun m => (m.vertices.get 4).isSome) (b := true) h1 (by decide +kernel)
      simp [h] at this)
    (first_of_check (of_map (f := fun m => noVertex m 4) h1 (by decide +kernel)))
    (of_map (f := fun m => m.numTets) (b := some 5) h1 (by decide +kernel))
    (of_map (f := fun m => m.numEdges) (b := some 10) h1 (by decide +kernel)) (by decide) (by decide)
  obtain ⟨m2, k1, k2, k3, -⟩ := C28_track_exact h4
  exact ⟨m2, by rw [ratSplit, h1, Option.bind_some, h3]; exact k1, k3, k2⟩

/-- No edge but this one goes through the triangle. -/
def onlyCheck (m : Mesh (Pt ℚ) Nat Unit) (t : V3) (f : VId × VId) : Bool :=
  m.edges.keys.all fun k => (m.edges.get k).all fun e =>
    decide (e.vertices = f ∨ m.triIntersectsEdge t.1 t.2.1 t.2.2 e.vertices.1 e.vertices.2 ≠ some true)

theorem only_of_check {m : Mesh (Pt ℚ) Nat Unit} {t : V3} {f e : VId × VId} (h : onlyCheck m t f = true) (hc : CrossesTri m t e) :
    e = f.swap ∨ e = f := by
  obtain ⟨⟨i, ue, h1, h2⟩, h3⟩ := hc
  have := List.all_eq_true.1 h i (IdMap.mem_keys.2 (by simp [h1]))
  rw [h1, Option.all_some, decide_eq_true_eq, h2] at this
  obtain ⟨a, b⟩ := e
  rcases le_total a b with hab | hab
  · rw [min_eq_left hab, max_eq_right hab] at this
    exact .inr (this.resolve_right (by simpa using h3))
  · rw [min_eq_right hab, max_eq_left hab] at this
    refine .inl ?_
    rw [← this.resolve_right (by rw [(C37_order m t.1 t.2.1 t.2.2 _ _).2.2]; simpa using h3)]
    rfl

/-- The mesh with a dent is consistent, fills space and is in general position, so it meets the hypotheses of C78 and C79.
The triangle over the dent is missing though its edges are in the mesh, and the only edge through it is the one from the
vertex in the dent to the ghost vertex. -/
theorem ratDent_ok : ∃ m, ratDent = some m ∧ Consistent m ∧ Tiles m ∧ NoFlat m ∧ m.trackTriMap = true ∧ Spacious m ∧ m.numTets = some 9 ∧
    Corners m (1, 2, 3) ∧ (∀ e ∈ triEdges (1, 2, 3), HasEdge m e.1 e.2) ∧ HasTet m (1, 2, GHOST, 4) ∧ CrossesTri m (1, 2, 3) (GHOST, 4) ∧
    ∀ e, CrossesTri m (1, 2, 3) e → e = (GHOST, 4) ∨ e = (4, GHOST) := by
  obtain ⟨m0, h1, h2, h3⟩ := ratSplit_ok
  obtain ⟨m, _, _, _, k1, k2, -⟩ := C19_flip23 h2 (w := ⟨0, 8⟩)
    (of_map (f := fun m => m.tet4 ⟨0, 8⟩) (b := some (1, 2, 3, 4)) h1 (by decide +kernel))
    (of_map (f := fun m => m.toAdj ⟨0, 8⟩) (b := some ⟨1, 11⟩) h1 (by decide +kernel))
    (of_map (f := fun m => m.fourth ⟨1, 11⟩) (b := some GHOST) h1 (by decide +kernel)) (by decide)
    (edge_of_check (of_map (f := fun m => noEdge m 4 GHOST) h1 (by decide +kernel)))
    (of_map (f := fun m => m.numTets) (b := some 8) h1 (by decide +kernel))
    (of_map (f := fun m => m.numEdges) (b := some 14) h1 (by decide +kernel)) (by decide) (by decide)
  have hd : ratDent = some m := by rw [ratDent, h1, Option.bind_some, k1]; rfl
  have hp := positive_of_check (of_map (f := positiveCheck) hd (by decide +kernel))
  have ho := offPlanes_of_check (of_map (f := fun m => offPlanesCheck m ⟨1 / 7, 1 / 5, 1 / 4⟩) hd (by decide +kernel))
  have hl := layers_check (of_map (f := fun m => holdersCheck m ⟨1 / 7, 1 / 5, 1 / 4⟩) (b := [5]) hd (by decide +kernel)) (by decide)
  have tet : ∀ k q, (ratDent.any fun m => (List.finRange 12).any fun c => m.tet4 ⟨k, c⟩ == some q) = true → HasTet m q := by
    intro k q h
    rw [hd] at h
    simp only [Option.any_some, List.any_eq_true, beq_iff_eq] at h
    obtain ⟨c, -, h⟩ := h
    exact ⟨_, h⟩
  have q1 : HasTet m (1, 2, GHOST, 4) := tet 0 _ (by decide +kernel)
  have q2 : HasTet m (2, 3, GHOST, 4) := tet 8 _ (by decide +kernel)
  have q3 : HasTet m (3, 1, GHOST, 4) := tet 1 _ (by decide +kernel)
  have sol : ∀ {a b c d}, HasTet m (a, b, c, d) → a ≠ GHOST → Solid m a := fun ⟨w, h⟩ hn => ⟨⟨w, (tet4_parts h).1⟩, hn⟩
  have hc : CrossesTri m (1, 2, 3) (GHOST, 4) := ⟨k2.toT.hasEdge_tet.2 ⟨1, 2, HasTet.same q1 (mem_twelve.1 (by simp [twelve]))⟩,
    of_map (f := fun m => m.triIntersectsEdge 1 2 3 GHOST 4) (b := some true) hd (by decide +kernel)⟩
  refine ⟨m, hd, k2, (C75_criterion k2 hp ho).2 hl, noFlat_of_check (of_map (f := noFlatCheck) hd (by decide +kernel)),
    of_map (f := fun m => m.trackTriMap) (b := true) hd (by decide +kernel),
    ⟨5, 9, of_map (f := Mesh.numVertices) hd (by decide +kernel), of_map (f := Mesh.numTets) hd (by decide +kernel), by decide⟩,
    of_map (f := Mesh.numTets) (b := some 9) hd (by decide +kernel),
    ⟨⟨sol q1 (by decide), sol q2 (by decide), sol q3 (by decide)⟩, by decide, by decide, by decide⟩, ?_, q1, hc, fun e he =>
      only_of_check (of_map (f := fun m => onlyCheck m (1, 2, 3) (4, GHOST)) hd (by decide +kernel)) he⟩
  intro e he
  simp only [triEdges, List.mem_cons, List.not_mem_nil, or_false] at he
  rcases he with rfl | rfl | rfl
  exacts [k2.toT.hasEdge_tet.2 ⟨_, _, q1⟩, k2.toT.hasEdge_tet.2 ⟨_, _, q2⟩, k2.toT.hasEdge_tet.2 ⟨_, _, q3⟩]

/-- C79: so there is a mesh in which `recover_and_lock_tri` panics for a triangle of solid vertices, ... -/
theorem C79_dent : ∃ m, ratDent = some m ∧ Consistent m ∧ Tiles m ∧ NoFlat m ∧ Corners m (1, 2, 3) ∧ ∀ sim steps, 12 * 9 ≤ steps →
    Settles (fun fuel => m.recoverAndLockTri (Mesh.exactTests sim steps) fuel (1, 2, 3)) none := by
  obtain ⟨m, h1, h2, h3, h4, h5, -, h6, h7, h8, h9, h10, h11⟩ := ratDent_ok
  exact ⟨m, h1, h2, h3, h4, h7, fun sim steps hs => C79_panics h2 h3 h4 h5 h7 h8 h9 h10 h11 h6 hs⟩

/-- ... while for the same triangle from the other side, the search lists the edge from its other end. -/
example : ratDent.map (fun m => [(m.triIntersections 40 (1, 2, 3)).map (·.map (·.edge)), (m.triIntersections 40 (2, 1, 3)).map (·.map (·.edge))]) =
    some [some [(GHOST, 4)], some [(4, GHOST)]] := by decide +kernel

/-- The hypothesis about `sim` in C79 can be met. -/
example (m : Mesh (Pt ℚ) Nat Unit) : ∃ sim, IsSim m.idxOri sim := sim_exists _

end Tet
