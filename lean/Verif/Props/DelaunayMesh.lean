import Verif.Proofs.HullCount
import Verif.Props.Progress

/-!
# Delaunay meshes: C69 to C72
-/

namespace Tet
open Spec
variable {K H V T V' T' : Type} [Field K] [LinearOrder K] [IsStrictOrderedRing K]

/-! ## C69: adding a vertex keeps the mesh Delaunay -/

theorem add_facts {norm : Pt K → K} {tol : K} {sim} {key : List (Pt K) → Pt K → H} {leH}
    {m : Mesh (Pt K) V T} (hd : Delaunay m) {p : Pt K} (hp : Off m p) {x : V} {id : VId} (hn : ¬ InMesh m id) (hg : id ≠ GHOST)
    {nT nE : Nat} (hT : m.numTets = some nT) (hE : m.numEdges = some nE) (rT : 5 * nT ≤ idMax) (rE : nE + 12 * nT ≤ idMax)
    {vs : IdMap (Vertex (Pt K) V)}
    (hvs : ∀ u, vs.get u = if u = id then some (Vertex.new invalidWalker p x) else m.vertices.get u)
    (hr : Ready { m with vertices := vs }) {run : Nat → Option (Mesh (Pt K) V T × VId)}
    (hi : Inserts (exactGeo norm tol sim key leH) { m with vertices := vs } id run) :
    ∃ N m', (∀ fuel ≥ N, run fuel = some (m', id)) ∧ Ready m' ∧ Delaunay m' ∧ (∀ v, InMesh m' v ↔ InMesh m v ∨ v = id) ∧
      LocksKept m m' ∧ ∀ u, (m'.vertices.get u).map (fun y => (y.position, y.value)) =
        if u = id then some (p, x) else (m.vertices.get u).map fun y => (y.position, y.value) := by
  have hv : ∀ v, InMesh m v → v ≠ GHOST → vs.get v = m.vertices.get v := by
    intro v hv _
    rw [hvs, if_neg]
    rintro rfl
    exact hn hv
  have A : Adds { m with vertices := vs } id p :=
    ⟨hr, hd.congr hv, ⟨hg, _, by change vs.get id = _; rw [hvs, if_pos rfl], rfl⟩, hn, hp.congr hv⟩
  obtain ⟨N, m', h1, h2, h3, h4, h5, h6⟩ := A.run hi (nT := nT) (nE := nE) hT hE rT rE
  refine ⟨N, m', h1, h2, h3, h4, ⟨h5.tri, h5.edge⟩, fun u => ?_⟩
  rw [h6]
  change (vs.get u).map _ = _
  rw [hvs]
  split_ifs <;> rfl

/-- C69: on a Delaunay mesh, inserting a point that is on no circumscribed sphere and in no plane of the hull never
gives up; the result is a Delaunay mesh of the old vertices and the new one, and locks, positions and values are
kept. -/
theorem C69_add {norm : Pt K → K} {tol : K} {sim} {key : List (Pt K) → Pt K → H} {leH} {order : List TId → List TId}
    (ho : ∀ l, (order l).Perm l) {m : Mesh (Pt K) V T} (hr : Ready m) (hd : Delaunay m) {p : Pt K} (hp : Off m p) (x : V)
    {nV nT nE : Nat} (hV : m.numVertices = some nV) (hT : m.numTets = some nT) (hE : m.numEdges = some nE) (rV : nV < idMax)
    (rT : 5 * nT ≤ idMax) (rE : nE + 12 * nT ≤ idMax) {start : VId} (hs : InMesh m start) (hsg : start ≠ GHOST) :
    ∃ N m' id, m.vertices.get id = none ∧ id ≠ GHOST ∧
      (∀ fuel ≥ N, m.addVertexDelaunayInternal (exactGeo norm tol sim key leH) order fuel none p x start = some (m', id)) ∧
      Ready m' ∧ Delaunay m' ∧ (∀ v, InMesh m' v ↔ InMesh m v ∨ v = id) ∧ LocksKept m m' ∧
      ∀ u, (m'.vertices.get u).map (fun y => (y.position, y.value)) =
        if u = id then some (p, x) else (m.vertices.get u).map fun y => (y.position, y.value) := by
  obtain ⟨vs, id, h1, h2, h3, h4, h5⟩ := C63_insert (exact_distances norm tol sim key leH) (exact_invariant norm tol sim key leH)
    ho hr hV rV p x hs hsg
  obtain ⟨N, m', h6, h7⟩ := add_facts hd hp (id := id) (fun ⟨w, hw⟩ => by
    rcases hr.consistent.vertexLive w id hw with h | ⟨y, hy, -⟩
    · exact h2 h
    · rw [h1] at hy; cases hy) h2 hT hE rT rE h3 h4 h5
  exact ⟨N, m', id, h1, h2, h6, h7⟩

/-- C69: the same for a vertex with a given id that is in no tet, whose position and value are replaced. -/
theorem C69_stored {norm : Pt K → K} {tol : K} {sim} {key : List (Pt K) → Pt K → H} {leH} {order : List TId → List TId}
    (ho : ∀ l, (order l).Perm l) {m : Mesh (Pt K) V T} (hr : Ready m) (hd : Delaunay m) {p : Pt K} (hp : Off m p) (x : V)
    {nT nE : Nat} (hT : m.numTets = some nT) (hE : m.numEdges = some nE) (rT : 5 * nT ≤ idMax) (rE : nE + 12 * nT ≤ idMax)
    {id : VId} {y : Vertex (Pt K) V} (hid : m.vertices.get id = some y) (hy : y.tet.tet = idMax)
    {start : VId} (hs : InMesh m start) (hsg : start ≠ GHOST) :
    ∃ N m', (∀ fuel ≥ N,
        m.addVertexDelaunayInternal (exactGeo norm tol sim key leH) order fuel (some id) p x start = some (m', id)) ∧
      Ready m' ∧ Delaunay m' ∧ (∀ v, InMesh m' v ↔ InMesh m v ∨ v = id) ∧ LocksKept m m' ∧
      ∀ u, (m'.vertices.get u).map (fun y => (y.position, y.value)) =
        if u = id then some (p, x) else (m.vertices.get u).map fun y => (y.position, y.value) := by
  obtain ⟨vs, h3, h4, h5⟩ := C63_stored (exact_distances norm tol sim key leH) (exact_invariant norm tol sim key leH)
    ho hr hid hy p x hs hsg
  have hm := hr.consistent.toT
  have hg : id ≠ GHOST := (hm.stored.1.lt_max hid).ne
  refine add_facts hd hp (id := id) (fun ⟨w, hw⟩ => ?_) hg hT hE rT rE h3 h4 h5
  rcases hr.consistent.vertexLive w id hw with h | ⟨z, hz, hz'⟩
  · exact hg h
  · rw [hid] at hz
    cases hz
    unfold Mesh.first at hz'
    obtain ⟨t, ht, -⟩ := Option.map_eq_some_iff.1 hz'
    have := hm.stored.2.2.lt_max ht
    omega

/-- C69: `add_vertex_delaunay`. -/
theorem C69_public {norm : Pt K → K} {tol : K} {sim} {key : List (Pt K) → Pt K → H} {leH} {order : List TId → List TId}
    (ho : ∀ l, (order l).Perm l) {m : Mesh (Pt K) V T} (hr : Ready m) (hd : Delaunay m)
    (hall : ∀ v x, m.vertices.get v = some x → InMesh m v) {p : Pt K} (hp : Off m p) (x : V)
    {nV nT nE : Nat} (hV : m.numVertices = some nV) (hT : m.numTets = some nT) (hE : m.numEdges = some nE) (rV : nV < idMax)
    (rT : 5 * nT ≤ idMax) (rE : nE + 12 * nT ≤ idMax) :
    ∃ N m' id, m.vertices.get id = none ∧ id ≠ GHOST ∧
      (∀ fuel ≥ N, m.addVertexDelaunay (exactGeo norm tol sim key leH) order fuel p x = some (m', id)) ∧
      Ready m' ∧ Delaunay m' ∧ (∀ v, InMesh m' v ↔ InMesh m v ∨ v = id) ∧ LocksKept m m' ∧
      ∀ u, (m'.vertices.get u).map (fun y => (y.position, y.value)) =
        if u = id then some (p, x) else (m.vertices.get u).map fun y => (y.position, y.value) := by
  have h0 : 0 < nV := by
    obtain ⟨w, a, b, c, d, pa, pb, pc, pd, -, ⟨-, y, hy, -⟩, -⟩ := hd.solid
    have hc := hr.consistent.toT
    have := hc.stored.1.len_eq
    rw [Mesh.numVertices, this] at hV
    have hk := IdMapSpec.length_keys hc.stored.1
    have hmem : a ∈ m.vertices.keys := IdMap.mem_keys.2 (by rw [hy]; rfl)
    have := List.length_pos_of_mem hmem
    have := Option.some.inj hV
    omega
  obtain ⟨vs, id, h1, h2, h3, h4, h5⟩ := C63_public (exact_distances norm tol sim key leH) (exact_invariant norm tol sim key leH)
    ho hr hV rV h0 hall p x
  obtain ⟨N, m', h6, h7⟩ := add_facts hd hp (id := id) (fun ⟨w, hw⟩ => by
    rcases hr.consistent.vertexLive w id hw with h | ⟨y, hy, -⟩
    · exact h2 h
    · rw [h1] at hy; cases hy) h2 hT hE rT rE h3 h4 h5
  exact ⟨N, m', id, h1, h2, h6, h7⟩

theorem rat5_delaunay : ∃ m, rat5 = some m ∧ Ready m ∧ Delaunay m := by
  obtain ⟨m, h1, h2⟩ := rat5_ready
  have h3 := of_map (f := hullCheck) (b := true) h1 (by decide +kernel)
  have h4 := of_map (f := fun m => m.tet4 ⟨0, 3⟩) (b := some (0, 1, 3, 2)) h1 (by decide +kernel)
  exact ⟨m, h1, h2, delaunay_of_check h2.consistent h3 ⟨_, _, _, _, _, h4, by decide⟩⟩

/-- All hypotheses of `C69_add` and `C69_public`: the first tet and a point outside of it and inside its
circumsphere. -/
example : ∃ m, rat5 = some m ∧ Ready m ∧ Delaunay m ∧ Off m ⟨1, 1, 1 / 2⟩ ∧ m.numVertices = some 4 ∧ m.numTets = some 5 ∧
    m.numEdges = some 10 ∧ (∀ v x, m.vertices.get v = some x → InMesh m v) ∧ InMesh m 3 := by
  obtain ⟨m, h1, h2, h3⟩ := rat5_delaunay
  have hall : ∀ v x, m.vertices.get v = some x → InMesh m v := by
    intro v x hx
    have := of_map (f := fun m => m.vertices.keys.all fun v => (m.vertices.get v).all fun x => decide (m.first x.tet = some v))
      (b := true) h1 (by decide +kernel)
    have := List.all_eq_true.1 this v (IdMap.mem_keys.2 (by rw [hx]; rfl))
    rw [hx] at this
    exact ⟨x.tet, by simpa using this⟩
  have h4 := of_map (f := fun m => (m.vertices.get 3).isSome) (b := true) h1 (by decide +kernel)
  obtain ⟨x, hx⟩ := Option.isSome_iff_exists.1 h4
  exact ⟨m, h1, h2, h3, off_of_check (of_map (f := fun m => offCheck m ⟨1, 1, 1 / 2⟩) h1 (by decide +kernel)),
    of_map (f := fun m => m.numVertices) h1 (by decide +kernel), of_map (f := fun m => m.numTets) h1 (by decide +kernel),
    of_map (f := fun m => m.numEdges) h1 (by decide +kernel), hall, hall 3 x hx⟩

/-- All hypotheses of `C69_stored`: `ratW` has a fifth vertex that is in no tet. -/
example : ∃ m y, ratW = some m ∧ Ready m ∧ Delaunay m ∧ Off m ⟨1, 1, 1 / 2⟩ ∧ m.vertices.get 4 = some y ∧ y.tet.tet = idMax := by
  obtain ⟨m, h1, h2⟩ := ratW_ok
  have h3 := of_map (f := hullCheck) (b := true) h1 (by decide +kernel)
  have h4 := of_map (f := fun m => m.tet4 ⟨0, 3⟩) (b := some (0, 1, 3, 2)) h1 (by decide +kernel)
  obtain ⟨y, hy, hy'⟩ := Option.map_eq_some_iff.1
    (of_map (f := fun m => (m.vertices.get 4).map fun y => y.tet.tet) (b := some idMax) h1 (by decide +kernel))
  exact ⟨m, y, h1, ⟨h2, unmarked_of_check (of_map (f := unmarkedCheck) h1 (by decide +kernel)),
    tidy_of_check (of_map (f := tidyCheck) h1 (by decide +kernel)),
    noMarks_of_check (of_map (f := noMarksCheck) h1 (by decide +kernel))⟩,
    delaunay_of_check h2 h3 ⟨_, _, _, _, _, h4, by decide⟩,
    off_of_check (of_map (f := fun m => offCheck m ⟨1, 1, 1 / 2⟩) h1 (by decide +kernel)), hy, hy'⟩

/-! ## C70: the tets tile the convex hull -/

/-- C70: no point is strictly inside two tets. -/
theorem C70_disjoint {m : Mesh (Pt K) V T} (hd : Delaunay m) (hm : Consistent m) {w w' : Walker} {a b c d a' b' c' d' : VId}
    {pa pb pc pd pa' pb' pc' pd' x : Pt K} (h : m.tet4 w = some (a, b, c, d)) (h' : m.tet4 w' = some (a', b', c', d'))
    (ha : At m a pa) (hb : At m b pb) (hc : At m c pc) (hd : At m d pd) (ha' : At m a' pa') (hb' : At m b' pb')
    (hc' : At m c' pc') (hd' : At m d' pd') (hx : InTet pa pb pc pd x) (hx' : InTet pa' pb' pc' pd' x) : w.tet = w'.tet :=
  (Spec.Delaunay.toHull ‹_› hm).disjoint h h' ha hb hc hd ha' hb' hc' hd' hx hx'

/-- C70: every convex combination of vertices is in a tet. -/
theorem C70_cover {m : Mesh (Pt K) V T} (hd : Delaunay m) (hm : Consistent m) {l : List (K × Pt K)}
    (hl : ∀ e ∈ l, 0 ≤ e.1 ∧ ∃ v, InMesh m v ∧ At m v e.2) (hs : (l.map (·.1)).sum = 1) :
    ∃ w a b c d pa pb pc pd, m.tet4 w = some (a, b, c, d) ∧ At m a pa ∧ At m b pb ∧ At m c pc ∧ At m d pd ∧
      ∃ ka kb kc kd : K, 0 ≤ ka ∧ 0 ≤ kb ∧ 0 ≤ kc ∧ 0 ≤ kd ∧ ka + kb + kc + kd = 1 ∧
        comb [(ka, pa), (kb, pb), (kc, pc), (kd, pd)] = comb l := by
  obtain ⟨w, a, b, c, d, pa, pb, pc, pd, h, ha, hb, hc, hpd⟩ := hd.solid
  refine (hd.toHull hm).covers ⟨w, a, b, c, d, h, by simp [ha.1.symm, hb.1.symm, hc.1.symm, hpd.1.symm]⟩ ?_
  intro w a b c pa pb pc hq ha hb hc
  rw [orient_comb, hs, sub_self, zero_mul, add_zero]
  refine sum_nonpos_list fun y hy => ?_
  obtain ⟨e, he, rfl⟩ := List.mem_map.1 hy
  obtain ⟨h1, v, hv, hpv⟩ := hl e he
  refine mul_nonpos_of_nonneg_of_nonpos h1 ?_
  by_cases hn : v ∈ [a, b, c]
  · refine le_of_eq ?_
    have key : ∀ {u : VId} {q : Pt K}, At m u q → v = u → e.2 = q := by
      rintro u q hu rfl
      have := At.position hu
      rw [At.position hpv] at this
      exact Option.some.inj this
    simp only [List.mem_cons, List.not_mem_nil, or_false] at hn
    rcases hn with h | h | h
    · rw [key ha h]; simp only [orient3d, Pt.sub, Pt.cross, Pt.dot]; ring
    · rw [key hb h]; simp only [orient3d, Pt.sub, Pt.cross, Pt.dot]; ring
    · rw [key hc h]; simp only [orient3d, Pt.sub, Pt.cross, Pt.dot]; ring
  · exact (hd.hull w a b c pa pb pc hq ha hb hc v e.2 hv hpv hn).le

/-! ## C71: there is only one Delaunay mesh -/

/-- C71: two Delaunay meshes with the same vertices at the same positions have the same tets. -/
theorem C71_unique {m : Mesh (Pt K) V T} {m' : Mesh (Pt K) V' T'} (hd : Delaunay m) (hm : Consistent m) (hd' : Delaunay m')
    (hm' : Consistent m') (hv : ∀ v, InMesh m v ↔ InMesh m' v) (hp : ∀ v p, InMesh m v → (At m v p ↔ At m' v p)) (q : V4) :
    HasTet m q ↔ HasTet m' q := by
  have hS : ∀ v, InM m v ↔ InM m' v := fun v => or_congr (hv v) Iff.rfl
  have hpv : ∀ v, InM m v → pvec m.position v = pvec m'.position v := by
    intro v h
    by_cases hg : v = GHOST
    · rw [hg, pvec_ghost, pvec_ghost]
    · obtain ⟨p, h1⟩ := exists_at hm h hg
      rw [pvec_at h1, pvec_at ((hp v p (h.resolve_right hg)).1 h1)]
  have hside : ∀ a b c d v, InM m a → InM m b → InM m c → InM m d → InM m v →
      side (pvec m.position) (a, b, c, d) (pvec m.position v) = side (pvec m'.position) (a, b, c, d) (pvec m'.position v) := by
    intro a b c d v ha hb hc hd hv
    simp only [side, hpv _ ha, hpv _ hb, hpv _ hc, hpv _ hd, hpv _ hv]
  have hu := hd.toHull hm
  have hu' := hd'.toHull hm'
  obtain ⟨a, b, c, d⟩ := q
  constructor
  · rintro ⟨w, h⟩
    obtain ⟨s1, s2, s3, s4⟩ := mem_vertices hu.cons hu.mem h
    obtain ⟨w0, a0, b0, c0, d0, -, -, -, -, h0, -⟩ := hd'.solid
    refine hu'.complete (live_iff.2 ⟨_, _, _, _, h0⟩) (inM_finite m') ((hS _).1 s1) ((hS _).1 s2) ((hS _).1 s3) ((hS _).1 s4)
      (hm.distinct _ _ _ _ _ h) fun v hv hn => ?_
    rw [← hside _ _ _ _ _ s1 s2 s3 s4 ((hS _).2 hv)]
    exact hu.pos _ _ v h ((hS _).2 hv) hn
  · rintro ⟨w, h⟩
    obtain ⟨s1, s2, s3, s4⟩ := mem_vertices hu'.cons hu'.mem h
    obtain ⟨w0, a0, b0, c0, d0, -, -, -, -, h0, -⟩ := hd.solid
    refine hu.complete (live_iff.2 ⟨_, _, _, _, h0⟩) (inM_finite m) ((hS _).2 s1) ((hS _).2 s2) ((hS _).2 s3) ((hS _).2 s4)
      (hm'.distinct _ _ _ _ _ h) fun v hv hn => ?_
    rw [hside _ _ _ _ _ ((hS _).2 s1) ((hS _).2 s2) ((hS _).2 s3) ((hS _).2 s4) hv]
    exact hu'.pos _ _ v h ((hS _).1 hv) hn

/-- C71: the tets are all the positively oriented ones with an empty circumscribed sphere. -/
theorem C71_solid {m : Mesh (Pt K) V T} (hd : Delaunay m) (hm : Consistent m) {a b c d : VId} (ha : InMesh m a) (hb : InMesh m b)
    (hc : InMesh m c) (hd' : InMesh m d) {pa pb pc pd : Pt K} (pa' : At m a pa) (pb' : At m b pb) (pc' : At m c pc)
    (pd' : At m d pd) :
    HasTet m (a, b, c, d) ↔ 0 < orient3d pa pb pc pd ∧ ∀ v pv, InMesh m v → At m v pv → v ∉ [a, b, c, d] →
      ∀ o r2, OnSphere o r2 [pa, pb, pc, pd] → r2 < (pv.sub o).norm2 := by
  have hu := hd.toHull hm
  constructor
  · rintro ⟨w, h⟩
    exact ⟨hd.positive _ _ _ _ _ _ _ _ _ h pa' pb' pc' pd', hd.empty _ _ _ _ _ _ _ _ _ h pa' pb' pc' pd'⟩
  · rintro ⟨h1, h2⟩
    obtain ⟨w0, a0, b0, c0, d0, -, -, -, -, h0, -⟩ := hd.solid
    refine hu.complete (live_iff.2 ⟨_, _, _, _, h0⟩) (inM_finite m) (.inl ha) (.inl hb) (.inl hc) (.inl hd') ?_ fun v hv hn => ?_
    · have key : ∀ {u v : VId} {p q : Pt K}, At m u p → At m v q → u = v → p = q := by
        rintro u v p q h1 h2 rfl
        have := At.position h1
        rw [At.position h2] at this
        exact (Option.some.inj this).symm
      simp only [List.nodup_cons, List.mem_cons, List.not_mem_nil, or_false, not_or, not_false_eq_true, List.nodup_nil,
        and_true]
      refine ⟨⟨fun e => ?_, fun e => ?_, fun e => ?_⟩, ⟨fun e => ?_, fun e => ?_⟩, fun e => ?_⟩
      · rw [key pa' pb' e] at h1
        simp only [orient3d, Pt.sub, Pt.cross, Pt.dot] at h1; ring_nf at h1; exact lt_irrefl _ h1
      · rw [key pa' pc' e] at h1
        simp only [orient3d, Pt.sub, Pt.cross, Pt.dot] at h1; ring_nf at h1; exact lt_irrefl _ h1
      · rw [key pa' pd' e] at h1
        simp only [orient3d, Pt.sub, Pt.cross, Pt.dot] at h1; ring_nf at h1; exact lt_irrefl _ h1
      · rw [key pb' pc' e] at h1
        simp only [orient3d, Pt.sub, Pt.cross, Pt.dot] at h1; ring_nf at h1; exact lt_irrefl _ h1
      · rw [key pb' pd' e] at h1
        simp only [orient3d, Pt.sub, Pt.cross, Pt.dot] at h1; ring_nf at h1; exact lt_irrefl _ h1
      · rw [key pc' pd' e] at h1
        simp only [orient3d, Pt.sub, Pt.cross, Pt.dot] at h1; ring_nf at h1; exact lt_irrefl _ h1
    · by_cases hg : v = GHOST
      · subst hg
        simp only [side, pvec_at pa', pvec_at pb', pvec_at pc', pvec_at pd', pvec_ghost, det_orient]
        exact h1
      · obtain ⟨pv, hpv⟩ := exists_at hm hv hg
        simp only [side, pvec_at pa', pvec_at pb', pvec_at pc', pvec_at pd', pvec_at hpv, det_solid, Left.neg_pos_iff]
        exact (sphere_of_pos h1).2 (h2 v pv (hv.resolve_right hg) hpv hn)

/-- C71: the ghost tets are those of all the triangles that have all other vertices strictly behind them. -/
theorem C71_ghost {m : Mesh (Pt K) V T} (hd : Delaunay m) (hm : Consistent m) {a b c : VId} (hn : [a, b, c].Nodup)
    (ha : InMesh m a) (hb : InMesh m b) (hc : InMesh m c) {pa pb pc : Pt K} (pa' : At m a pa) (pb' : At m b pb)
    (pc' : At m c pc) :
    HasTet m (a, b, c, GHOST) ↔ ∀ v pv, InMesh m v → At m v pv → v ∉ [a, b, c] → orient3d pa pb pc pv < 0 := by
  have hu := hd.toHull hm
  constructor
  · rintro ⟨w, h⟩
    exact hd.hull _ _ _ _ _ _ _ h pa' pb' pc'
  · intro h1
    obtain ⟨w0, a0, b0, c0, d0, -, -, -, -, h0, -⟩ := hd.solid
    refine hu.complete (live_iff.2 ⟨_, _, _, _, h0⟩) (inM_finite m) (.inl ha) (.inl hb) (.inl hc) (.inr rfl) ?_ fun v hv hn => ?_
    · simp only [List.nodup_cons, List.mem_cons, List.not_mem_nil, or_false, not_or, not_false_eq_true, List.nodup_nil,
        and_true] at hn ⊢
      exact ⟨⟨hn.1.1, hn.1.2, pa'.1⟩, ⟨hn.2, pb'.1⟩, pc'.1⟩
    · simp only [List.mem_cons, List.not_mem_nil, or_false, not_or] at hn
      obtain ⟨pv, hpv⟩ := exists_at hm hv hn.2.2.2
      simp only [side, pvec_at pa', pvec_at pb', pvec_at pc', pvec_at hpv, pvec_ghost, ghost3, Left.neg_pos_iff]
      exact h1 v pv (hv.resolve_right hn.2.2.2) hpv (by simp only [List.mem_cons, List.not_mem_nil, or_false, not_or]; tauto)

theorem at_iff {m : Mesh (Pt K) V T} {v : VId} {p : Pt K} :
    At m v p ↔ v ≠ GHOST ∧ ((m.vertices.get v).map fun y => (y.position, y.value)).map (·.1) = some p := by
  rw [Option.map_map, Option.map_eq_some_iff]
  rfl

/-- C71: the tets after inserting a vertex depend neither on where the search starts nor on the order in which the
tets of the cavity are found. -/
theorem C71_order {norm norm' : Pt K → K} {tol tol' : K} {sim sim'} {key key' : List (Pt K) → Pt K → H} {leH leH'}
    {order order' : List TId → List TId} (ho : ∀ l, (order l).Perm l) (ho' : ∀ l, (order' l).Perm l)
    {m : Mesh (Pt K) V T} (hr : Ready m) (hd : Delaunay m) {p : Pt K} (hp : Off m p) (x : V)
    {nT nE : Nat} (hT : m.numTets = some nT) (hE : m.numEdges = some nE) (rT : 5 * nT ≤ idMax) (rE : nE + 12 * nT ≤ idMax)
    {id : VId} {y : Vertex (Pt K) V} (hid : m.vertices.get id = some y) (hy : y.tet.tet = idMax)
    {start start' : VId} (hs : InMesh m start) (hsg : start ≠ GHOST) (hs' : InMesh m start') (hsg' : start' ≠ GHOST) :
    ∃ N m1 m2, (∀ fuel ≥ N,
        m.addVertexDelaunayInternal (exactGeo norm tol sim key leH) order fuel (some id) p x start = some (m1, id) ∧
        m.addVertexDelaunayInternal (exactGeo norm' tol' sim' key' leH') order' fuel (some id) p x start' = some (m2, id)) ∧
      ∀ q, HasTet m1 q ↔ HasTet m2 q := by
  obtain ⟨N, m1, h1, h2, h3, h4, -, h5⟩ := C69_stored (norm := norm) (tol := tol) (sim := sim) (key := key) (leH := leH)
    ho hr hd hp x hT hE rT rE hid hy hs hsg
  obtain ⟨N', m2, k1, k2, k3, k4, -, k5⟩ := C69_stored (norm := norm') (tol := tol') (sim := sim') (key := key') (leH := leH')
    ho' hr hd hp x hT hE rT rE hid hy hs' hsg'
  refine ⟨max N N', m1, m2, fun fuel hf => ⟨h1 fuel (le_trans (le_max_left _ _) hf), k1 fuel (le_trans (le_max_right _ _) hf)⟩,
    C71_unique h3 h2.consistent k3 k2.consistent (fun v => (h4 v).trans (k4 v).symm) fun v p _ => ?_⟩
  rw [at_iff, at_iff, h5, k5]

/-- All hypotheses of `C70` and `C71`, and what they say: the centre of the tet is only in it, and `ratW`, which has
one more stored vertex, has the same tets. -/
example : ∃ m m', rat5 = some m ∧ ratW = some m' ∧ Consistent m ∧ Delaunay m ∧ Consistent m' ∧ Delaunay m' ∧
    InMesh m 0 ∧ At m 0 ⟨0, 0, 0⟩ ∧ InTet (⟨0, 0, 0⟩ : Pt ℚ) ⟨1, 0, 0⟩ ⟨0, 1, 0⟩ ⟨0, 0, 1⟩ ⟨1 / 4, 1 / 4, 1 / 4⟩ := by
  obtain ⟨m, h1, h2, h3⟩ := rat5_delaunay
  obtain ⟨m', k1, k2⟩ := ratW_ok
  have h4 := of_map (f := fun m => m.first ⟨0, 3⟩) (b := some 0) h1 (by decide +kernel)
  obtain ⟨y, hy, hy'⟩ := Option.map_eq_some_iff.1
    (of_map (f := fun m => (m.vertices.get 0).map fun y => y.position) (b := some ⟨0, 0, 0⟩) h1 (by decide +kernel))
  refine ⟨m, m', h1, k1, h2.consistent, h3, k2, delaunay_of_check k2 (of_map (f := hullCheck) k1 (by decide +kernel))
    ⟨_, _, _, _, _, of_map (f := fun m => m.tet4 ⟨0, 3⟩) (b := some (0, 1, 3, 2)) k1 (by decide +kernel), by decide⟩,
    ⟨_, h4⟩, ⟨by decide, y, hy, hy'⟩, 1 / 4, 1 / 4, 1 / 4, 1 / 4, by norm_num, by norm_num, by norm_num, by norm_num,
    by norm_num, by simp [comb, Pt.add, Pt.smul]⟩

/-! ## C72: how many tets and edges there are -/

/-- C72: the number of edges of any consistent mesh is at most the number of pairs of vertices, counting the ghost
vertex. -/
theorem C72_edges {P : Type} {m : Mesh P V T} (hm : Consistent m) {nV nE : Nat} (hV : m.numVertices = some nV)
    (hE : m.numEdges = some nE) : 2 * nE ≤ nV * (nV + 1) := edges_le hm hV hE

/-- C72: a Delaunay mesh has at most twice as many tets as edges. -/
theorem C72_tets {m : Mesh (Pt K) V T} (hd : Delaunay m) (hm : Consistent m) {nT nE : Nat} (hT : m.numTets = some nT)
    (hE : m.numEdges = some nE) : nT ≤ 2 * nE := (hd.toHull hm).count (inM_finite m) hT hE

/-- C72: so the number of tets of a Delaunay mesh, ghost tets included, is at most quadratic in the number of
vertices. -/
theorem C72_size {m : Mesh (Pt K) V T} (hd : Delaunay m) (hm : Consistent m) {nV nT : Nat} (hV : m.numVertices = some nV)
    (hT : m.numTets = some nT) : nT ≤ nV * (nV + 1) := by
  have hE : m.numEdges = some m.edges.keys.length := by
    have hs := hm.toT.stored.2.1
    rw [Mesh.numEdges, hs.len_eq, IdMapSpec.length_keys hs]
  exact (C72_tets hd hm hT hE).trans (C72_edges hm hV hE)

/-- All hypotheses of `C72`: the first mesh, whose edges join all pairs of vertices. -/
example : ∃ m, rat5 = some m ∧ Consistent m ∧ Delaunay m ∧ m.numVertices = some 4 ∧ m.numTets = some 5 ∧
    m.numEdges = some 10 ∧ 2 * 10 = 4 * (4 + 1) := by
  obtain ⟨m, h1, h2, h3⟩ := rat5_delaunay
  exact ⟨m, h1, h2.consistent, h3, of_map (f := fun m => m.numVertices) h1 (by decide +kernel),
    of_map (f := fun m => m.numTets) h1 (by decide +kernel), of_map (f := fun m => m.numEdges) h1 (by decide +kernel), rfl⟩

end Tet
