import Verif.Proofs.DelaunayAdd
import Verif.Model.DelaunayExact
import Verif.Props.Geo
import Verif.Props.Export

/-!
# The Delaunay construction (C43, C63)
-/

namespace Tet
open Spec
variable {P V T D R K : Type}

/-! ## C43 -/

theorem tagged_perm {key : List P → P → K} {le : K → K → Bool} {points : List (P × V)} {l}
    (h : hilbertSort key le points = some l) :
    l.Perm (points.zipIdx.map fun x => (x.2 % 2 ^ 32, x.1)) := by
  unfold hilbertSort at h
  split_ifs at h
  cases h
  exact List.mergeSort_perm _ _

/-- C43: if `delaunay_from_vertices` returns, the mesh has one vertex per point, and vertex `i` has the position
and the value of point `i`, whatever the order of insertion. -/
theorem C43_vertices {g : DelaunayGeo P D R K} {order : List TId → List TId} {fuel : Nat} {nan origin : P}
    {points : List (P × V)} {dt : T} {m : Mesh P V T}
    (h : Mesh.delaunayFromVertices g order fuel nan origin points dt = some m) :
    4 ≤ points.length ∧ m.numVertices = some points.length ∧
      ∀ i : Nat, (m.vertices.get i).map (fun x => (x.position, x.value)) = points[i]? := by
  unfold Mesh.delaunayFromVertices at h
  obtain ⟨l, h1, h⟩ := Option.bind_eq_some_iff.1 h
  have hp := tagged_perm h1
  have hlen : l.length = points.length := by rw [hp.length_eq]; simp
  have hmax : points.length ≤ idMax := by
    have h := h
    unfold Mesh.delaunayFromSorted at h
    obtain ⟨first, -, h⟩ := Option.bind_eq_some_iff.1 h
    obtain ⟨⟨vs, ks⟩, h2, -⟩ := Option.bind_eq_some_iff.1 h
    obtain ⟨w1, -, w3⟩ := IdMap.extendValues_some IdMap.WF.empty h2
    have h3 : vs.size ≤ vs.map.slots.length := List.countP_le_length
    have h4 := w1.le_max
    rw [List.length_map] at w3
    omega
  have e1 : (points.zipIdx.map fun x => (x.2 % 2 ^ 32, x.1)) = points.zipIdx.map fun x => (x.2, x.1) := by
    apply List.map_congr_left
    rintro ⟨p, i⟩ hx
    have := (List.getElem?_eq_some_iff.1 (List.mem_zipIdx_iff_getElem?.1 hx)).1
    simp only [Prod.mk.injEq, and_true]
    exact Nat.mod_eq_of_lt (by simp only [idMax] at hmax; simp only at this; omega)
  rw [e1] at hp
  have hmem : ∀ i x, (i, x) ∈ l ↔ points[i]? = some x := by
    intro i x
    rw [hp.mem_iff]
    simp only [List.mem_map, Prod.mk.injEq, Prod.exists, List.mem_zipIdx_iff_getElem?]
    constructor
    · rintro ⟨a, b, j, h, rfl, rfl⟩; exact h
    · intro h; exact ⟨x.1, x.2, i, h, rfl, rfl⟩
  have hids : (l.map (·.1)).Perm (List.range l.length) := by
    refine (hp.map _).trans ?_
    rw [List.map_map, hlen]
    have : (points.zipIdx.map ((fun x : VId × P × V => x.1) ∘ fun x : (P × V) × Nat => (x.2, x.1))) = List.range points.length := by
      rw [List.range_eq_range', ← List.zipIdx_map_snd 0 points]
      rfl
    rw [this]
  obtain ⟨h4, h5, h6, h7, -⟩ := sorted_vertices hids h
  have hget : ∀ i : Nat, (m.vertices.get i).map (fun x => (x.position, x.value)) = points[i]? := by
    intro i
    rcases hi : points[i]? with - | x
    · rw [h7 i, Option.map_none]
      rw [List.mem_map]
      rintro ⟨⟨j, y⟩, hy, rfl⟩
      rw [(hmem j y).1 hy] at hi
      cases hi
    · exact h6 (i, x) ((hmem i x).2 hi)
  refine ⟨hlen ▸ h4, ?_, hget⟩
  rw [Mesh.numVertices, h5.len_eq, IdMap.size_of_keys h5 (List.range points.length) List.nodup_range, List.length_range]
  intro j
  rw [List.mem_range]
  have := hget j
  constructor
  · intro hj
    rw [List.getElem?_eq_getElem hj, Option.map_eq_some_iff] at this
    obtain ⟨x, hx, -⟩ := this
    rw [hx]; rfl
  · intro hj
    obtain ⟨x, hx⟩ := Option.isSome_iff_exists.1 hj
    rw [hx, Option.map_some] at this
    exact (List.getElem?_eq_some_iff.1 this.symm).1

/-- C43: fewer than four points are refused. -/
theorem C43_few (g : DelaunayGeo P D R K) (order : List TId → List TId) (fuel : Nat) (nan origin : P)
    {points : List (P × V)} (dt : T) (h : points.length < 4) :
    (Mesh.delaunayFromVertices g order fuel nan origin points dt : Option (Mesh P V T)) = none := by
  rw [Option.eq_none_iff_forall_not_mem]
  intro m hm
  have := (C43_vertices hm).1
  omega

/-! ## C63 -/

/-- C63: adding a vertex to a mesh.  The search for a tet whose circumsphere has the new vertex inside always
ends; if it gives up, that is a panic; otherwise all tets reachable from it through conflicting tets are the
cavity, and if the cavity can be filled, the call returns, the result is consistent without leftover marks,
exactly the tets of the cavity are replaced by cones from the new vertex, locks, positions and values of
everything else are kept, and the vertices of tets stay vertices of tets. -/
theorem C63_insert {g : DelaunayGeo P D R K} (hg : Distances g) (hi : Invariant g) {order : List TId → List TId}
    (ho : ∀ l, (order l).Perm l) {m : Mesh P V T} (hr : Ready m) {nV : Nat} (hV : m.numVertices = some nV) (hroom : nV < idMax)
    (p : P) (x : V) {start : VId} (hs : InMesh m start) (hsg : start ≠ GHOST) :
    ∃ vs id, m.vertices.get id = none ∧ id ≠ GHOST ∧
      (∀ u, vs.get u = if u = id then some (Vertex.new invalidWalker p x) else m.vertices.get u) ∧
      Ready { m with vertices := vs } ∧
      Inserts g { m with vertices := vs } id fun fuel => m.addVertexDelaunayInternal g order fuel none p x start := by
  have hc := hr.consistent.toT
  have hsz : m.vertices.size = nV := by
    have := hc.stored.1.len_eq
    rw [Mesh.numVertices, this] at hV
    exact Option.some.inj hV
  obtain ⟨vs, id, h⟩ := IdMap.insert_isSome (v := Vertex.new invalidWalker p x) hc.stored.1 (by omega)
  obtain ⟨-, h2, h3, h4, -⟩ := IdMap.insert_some hc.stored.1 h
  obtain ⟨a1, a2, -⟩ := hc.addVertex h
  have hr' := hr.withVertices a1 h4
  refine ⟨vs, id, h2, h3.ne, h4, hr', ?_⟩
  have := addStored_spec hg ho hr' (id := id) a2 rfl hi (start := start) hs hsg
  have e : (fun fuel => m.addVertexDelaunayInternal g order fuel none p x start) =
      fun fuel => ({ m with vertices := vs } : Mesh P V T).addStored g order fuel id start := by
    funext fuel
    simp only [Mesh.addVertexDelaunayInternal, h, Option.map_some, Option.bind_eq_bind, Option.bind_some, Mesh.addStored]
  rw [e]
  exact this

/-- C63: the same for a vertex with a given id that is in no tet, whose position and value are replaced. -/
theorem C63_stored {g : DelaunayGeo P D R K} (hg : Distances g) (hi : Invariant g) {order : List TId → List TId}
    (ho : ∀ l, (order l).Perm l) {m : Mesh P V T} (hr : Ready m) {id : VId} {y : Vertex P V}
    (hid : m.vertices.get id = some y) (hy : y.tet.tet = idMax) (p : P) (x : V) {start : VId} (hs : InMesh m start)
    (hsg : start ≠ GHOST) :
    ∃ vs, (∀ u, vs.get u = if u = id then some (Vertex.new invalidWalker p x) else m.vertices.get u) ∧
      Ready { m with vertices := vs } ∧
      Inserts g { m with vertices := vs } id fun fuel => m.addVertexDelaunayInternal g order fuel (some id) p x start := by
  have hc := hr.consistent.toT
  obtain ⟨vs, h, -, -⟩ := IdMap.insertWithKey_spec id (Vertex.new invalidWalker p x) hc.stored.1 (hc.stored.1.lt_max hid)
  obtain ⟨a1, a2⟩ := hc.replaceVertex hid hy h
  have hr' := hr.withVertices a1 a2
  refine ⟨vs, a2, hr', ?_⟩
  have := addStored_spec hg ho hr' (id := id) (by change vs.get id = _; rw [a2, if_pos rfl]) rfl hi (start := start) hs hsg
  have e : (fun fuel => m.addVertexDelaunayInternal g order fuel (some id) p x start) =
      fun fuel => ({ m with vertices := vs } : Mesh P V T).addStored g order fuel id start := by
    funext fuel
    simp only [Mesh.addVertexDelaunayInternal, h, Option.map_some, Option.bind_eq_bind, Option.bind_some, Mesh.addStored]
  rw [e]
  exact this

/-- C63: `add_vertex_delaunay` is this with the first vertex of the mesh as the start of the search, if every vertex
is in a tet. -/
theorem C63_public {g : DelaunayGeo P D R K} (hg : Distances g) (hi : Invariant g) {order : List TId → List TId}
    (ho : ∀ l, (order l).Perm l) {m : Mesh P V T} (hr : Ready m) {nV : Nat} (hV : m.numVertices = some nV) (hroom : nV < idMax)
    (h0 : 0 < nV) (hall : ∀ v x, m.vertices.get v = some x → InMesh m v) (p : P) (x : V) :
    ∃ vs id, m.vertices.get id = none ∧ id ≠ GHOST ∧
      (∀ u, vs.get u = if u = id then some (Vertex.new invalidWalker p x) else m.vertices.get u) ∧
      Ready { m with vertices := vs } ∧
      Inserts g { m with vertices := vs } id fun fuel => m.addVertexDelaunay g order fuel p x := by
  have hc := hr.consistent.toT
  have hne : m.vertices.keys ≠ [] := by
    intro he
    have hk := IdMap.size_of_keys hc.stored.1 [] List.nodup_nil (fun j => by rw [← he]; exact IdMap.mem_keys)
    have := hc.stored.1.len_eq
    rw [Mesh.numVertices, this] at hV
    have := Option.some.inj hV
    simp at hk
    omega
  obtain ⟨s, l, hl⟩ := List.exists_cons_of_ne_nil hne
  obtain ⟨y, hy⟩ := Option.isSome_iff_exists.1 (IdMap.mem_keys.1 (show s ∈ m.vertices.keys by rw [hl]; simp))
  have hsg : s ≠ GHOST := (hc.stored.1.lt_max hy).ne
  have := C63_insert hg hi ho hr hV hroom p x (hall s y hy) hsg
  simpa only [Mesh.addVertexDelaunay, hl, List.head?_cons, Option.bind_eq_bind, Option.bind_some] using this

/-! ### Exact arithmetic -/

section exact
variable {K H : Type} [Field K] [LinearOrder K] [IsStrictOrderedRing K]

theorem sphereOf_ghost {ori ori' : VId → Option (Pt K)} (h : ∀ v, v ≠ GHOST → ori v = ori' v) {c c' : Pt K}
    (hc : ori GHOST = some c) (hc' : ori' GHOST = some c') (oe : Option (Pt K)) (v0 v1 v2 v3 : VId)
    (hd : [v0, v1, v2, v3].Nodup) : sphereOf ori oe v0 v1 v2 v3 = sphereOf ori' oe v0 v1 v2 v3 := by
  simp only [List.nodup_cons, List.mem_cons, List.not_mem_nil, or_false, not_or, not_false_eq_true,
    List.nodup_nil, and_true] at hd
  obtain ⟨⟨h1, h2, h3⟩, ⟨h4, h5⟩, h6⟩ := hd
  unfold sphereOf
  by_cases g0 : v0 = GHOST
  · subst g0
    rw [hc, hc', h v1 (Ne.symm h1), h v2 (Ne.symm h2), h v3 (Ne.symm h3)]
    simp only [if_true, Option.bind_eq_bind, Option.bind_some]
  by_cases g1 : v1 = GHOST
  · subst g1
    rw [hc, hc', h v0 g0, h v2 (Ne.symm h4), h v3 (Ne.symm h5)]
    simp only [if_true, if_neg g0, Option.bind_eq_bind, Option.bind_some]
  by_cases g2 : v2 = GHOST
  · subst g2
    rw [hc, hc', h v0 g0, h v1 g1, h v3 (Ne.symm h6)]
    simp only [if_true, if_neg g0, if_neg g1, Option.bind_eq_bind, Option.bind_some]
  by_cases g3 : v3 = GHOST
  · subst g3
    rw [hc, hc', h v0 g0, h v1 g1, h v2 g2]
    simp only [if_true, if_neg g0, if_neg g1, if_neg g2, Option.bind_eq_bind, Option.bind_some]
  rw [h v0 g0, h v1 g1, h v2 g2, h v3 g3]

/-- The test of the insertion is `in_sphere` of the mesh. -/
theorem sphereSign_eq {m : Mesh (Pt K) V T} {id a b c d : VId} (hd : [a, b, c, d].Nodup) {x : K}
    (h : m.inSphere a b c d id = some x) : sphereSign m.position id (a, b, c, d) = x := by
  have : m.inSphere a b c d id = sphereOf (fun v => if v = GHOST then some (⟨0, 0, 0⟩ : Pt K) else m.position v)
      (m.position id) a b c d := by
    refine (sphereOf_ghost (ori := m.idxOri) (fun v hv => ?_) (idxOri_ghost m) (c' := ⟨0, 0, 0⟩) (by simp) _ _ _ _ _ hd)
    rw [Mesh.idxOri, if_neg hv, if_neg hv]
    rfl
  rw [h] at this
  exact congrArg (fun o : Option K => o.getD 0) this.symm

theorem exact_invariant (norm : Pt K → K) (tol : K) (sim) (key : List (Pt K) → Pt K → H) (leH) :
    Invariant (exactGeo norm tol sim key leH) := by
  rintro pos id ⟨a, b, c, d⟩ ⟨a', b', c', d'⟩ hinj hs
  have : sphereSign pos id (a', b', c', d') = sphereSign pos id (a, b, c, d) := by
    refine congrArg (fun o : Option K => o.getD 0) (alt_even (fun x : Option K => x.map (-·)) map_neg_neg
      (fun a b c d => sphereOf (fun v => if v = GHOST then some (⟨0, 0, 0⟩ : Pt K) else pos v) (pos id) a b c d)
      (fun v => [v 0, v 1, v 2, v 3].Nodup) nodup_comp (fun a b c d h => (sphereOf_alt _ _ a b c d h).1)
      (fun a b c d h => (sphereOf_alt _ _ a b c d h).2.1) (fun a b c d h => (sphereOf_alt _ _ a b c d h).2.2) hs ?_)
    rw [nodup4]
    exact hinj
  simp only [exactGeo, exactTests, this]

theorem exact_distances (norm : Pt K → K) (tol : K) (sim) (key : List (Pt K) → Pt K → H) (leH) :
    Distances (exactGeo norm tol sim key leH) := by
  refine ⟨?_, ?_, ?_, ?_, ?_, ?_⟩ <;> simp only [exactGeo, decide_eq_true_eq, decide_eq_false_iff_not, Bool.or_eq_true]
  · exact fun a => lt_irrefl a
  · exact fun a b c h1 h2 => h1.trans h2
  · exact fun a => not_top_lt
  · exact fun a b => le_total a b
  · exact fun a b c h1 h2 => h1.trans h2
  · exact fun a b c h1 h2 => h1.trans_lt h2

/-- With exact arithmetic, a positively oriented tet is violated exactly if the vertex is strictly inside its
circumscribed sphere. -/
theorem C63_sphere {norm : Pt K → K} {tol : K} {sim} {key : List (Pt K) → Pt K → H} {leH}
    {m : Mesh (Pt K) V T} (hm : Consistent m) {id : VId} {k : TId} {a b c d : VId}
    (hk : m.tet4 (Mesh.walkerFromTetId k) = some (a, b, c, d)) {pa pb pc pd pe : Pt K} (ha : At m a pa) (hb : At m b pb)
    (hc : At m c pc) (hd : At m d pd) (he : At m id pe) (hp : 0 < orient3d pa pb pc pd) :
    (∃ o r2, OnSphere o r2 [pa, pb, pc, pd]) ∧ ∀ o r2, OnSphere o r2 [pa, pb, pc, pd] →
      (Violated (exactGeo norm tol sim key leH) m id k ↔ (pe.sub o).norm2 < r2) := by
  obtain ⟨r, h1, h2, h3⟩ := C39_solid ha hb hc hd he hp
  refine ⟨h2, fun o r2 h => ?_⟩
  rw [← (h3 o r2 h).1, ← sphereSign_eq (hm.distinct _ _ _ _ _ hk) h1]
  constructor
  · rintro ⟨q, hq, h⟩
    rw [hk] at hq
    cases hq
    simp only [exactGeo, exactTests] at h
    by_contra hn
    rw [if_neg hn] at h
    split_ifs at h <;> omega
  · intro h
    refine ⟨_, hk, ?_⟩
    simp only [exactGeo, exactTests, if_pos h]
    decide

/-- A ghost tet is violated exactly if the vertex is beyond its solid triangle. -/
theorem C63_beyond {norm : Pt K → K} {tol : K} {sim} {key : List (Pt K) → Pt K → H} {leH}
    {m : Mesh (Pt K) V T} (hm : Consistent m) {id : VId} {w : Walker} {a b c : VId}
    (hw : m.tet4 w = some (a, b, c, GHOST)) {pa pb pc pe : Pt K} (ha : At m a pa) (hb : At m b pb)
    (hc : At m c pc) (he : At m id pe) :
    Violated (exactGeo norm tol sim key leH) m id w.tet ↔ 0 < orient3d pa pb pc pe := by
  have h1 := C39_ghost ha hb hc he
  rw [C35_solid ha hb hc he] at h1
  have hnd := hm.distinct _ _ _ _ _ hw
  obtain ⟨t, ht, -⟩ := Mesh.tet4_iff.1 hw
  have hk : m.tet4 (Mesh.walkerFromTetId w.tet) = some (t.tet 3) := Mesh.tet4_iff.2 ⟨t, ht, rfl⟩
  have hsame := exact_invariant norm tol sim key leH m.position id _ _ ((nodup4 (quad (a, b, c, GHOST))).1 hnd)
    (tet_same (w := w) (w' := Mesh.walkerFromTetId w.tet) rfl hw hk)
  have key : 0 < ((exactGeo norm tol sim key leH).tests m.position id).inSphere (a, b, c, GHOST) ↔ 0 < orient3d pa pb pc pe := by
    rw [← sphereSign_eq hnd h1]
    simp only [exactGeo, exactTests]
    constructor
    · intro h
      by_contra hn
      rw [if_neg hn] at h
      split_ifs at h <;> omega
    · intro h
      rw [if_pos h]
      decide
  rw [← key, hsame]
  constructor
  · rintro ⟨q, hq, h⟩
    rw [hk] at hq
    cases hq
    exact h
  · intro h
    exact ⟨_, hk, h⟩

end exact

/-! ### Examples -/

def noMarksCheck (m : Mesh P V T) : Bool :=
  (m.tets.keys.all fun k => (m.tets.get k).all fun t => !t.flags.walkersFromVertex) &&
  (m.vertices.keys.all fun v => (m.vertices.get v).all fun x => !x.flags.targets) && !m.ghostFlags.targets

theorem noMarks_of_check {m : Mesh P V T} (h : noMarksCheck m = true) : NoMarks m := by
  simp only [noMarksCheck, Bool.and_eq_true, List.all_eq_true] at h
  obtain ⟨⟨h1, h2⟩, h3⟩ := h
  refine ⟨?_, ?_, by simpa using h3⟩
  · intro k t ht
    simpa [ht] using h1 k (IdMap.mem_keys.2 (by rw [ht]; rfl))
  · intro k t ht
    simpa [ht] using h2 k (IdMap.mem_keys.2 (by rw [ht]; rfl))

/-- Exact rational arithmetic, with the square of the norm instead of the norm (which is only compared with
the tolerance), and all points at the same place of the curve. -/
def exGeo : DelaunayGeo (Pt ℚ) (WithTop ℚ) ℚ Nat := exactGeo Pt.norm2 (1 / 1000)
  (fun a b c d => decide (0 < orient3d a b c d)) (fun _ _ => 0) (fun a b => decide (a ≤ b))

/-- The points of the unit test `test_delaunay_tets_multiple`. -/
def exPoints : List (Pt ℚ × Nat) := [(⟨0, 0, 0⟩, 10), (⟨1, 0, 0⟩, 11), (⟨0, 1, 0⟩, 12), (⟨0, 0, 1⟩, 13),
  (⟨3 / 2, 3 / 2, 1⟩, 14), (⟨1 / 2, 1 / 2, 1 / 2⟩, 15)]

/-- The tets that the unit test expects. -/
def exTets : List V4 := [(0, 3, 2, 5), (0, 1, 3, 5), (1, 0, 2, 5), (1, 4, 3, 5), (3, 4, 2, 5), (2, 4, 1, 5),
  (0, 2, 3, GHOST), (0, 3, 1, GHOST), (1, 2, 0, GHOST), (1, 3, 4, GHOST), (3, 2, 4, GHOST), (2, 1, 4, GHOST)]

def hasTets (m : Mesh P V T) (l : List V4) : Bool := l.all fun q => m.tets.keys.any fun k =>
  (List.finRange 12).any fun c => decide (m.tet4 ⟨k, c⟩ = some q)

/-- The construction returns for these points, with exactly the tets that the unit test expects. -/
example : ∃ m, Mesh.delaunayFromVertices exGeo id 60 ⟨0, 0, 0⟩ ⟨0, 0, 0⟩ exPoints () = some m ∧
    hasTets m exTets = true ∧ m.numTets = some exTets.length := by
  have h1 : hilbertSort exGeo.key exGeo.leK exPoints = some (exPoints.zipIdx.map fun x => (x.2, x.1)) := by
    simp [exPoints, exGeo, exactGeo, hilbertSort, List.zipIdx, List.mergeSort, List.MergeSort.Internal.splitInTwo]
  rw [Mesh.delaunayFromVertices, h1]
  have h2 : ((Mesh.delaunayFromSorted exGeo id 60 ⟨0, 0, 0⟩ ⟨0, 0, 0⟩ () (exPoints.zipIdx.map fun x => (x.2, x.1)) :
      Option (Mesh (Pt ℚ) Nat Unit)).map fun m => (hasTets m exTets, m.numTets)) = some (true, some exTets.length) := by
    decide +kernel
  obtain ⟨m, h3, h4⟩ := Option.map_eq_some_iff.1 h2
  simp only [Prod.mk.injEq] at h4
  exact ⟨m, h3, h4⟩

theorem rat5_ready : ∃ m, rat5 = some m ∧ Ready m := by
  obtain ⟨m, h1, h2, -⟩ := C14_new (fun a b c d => decide (0 < orient3d a b c d)) Pt.centroid4 (⟨0, 0, 0⟩ : Pt ℚ)
    (⟨0, 0, 0⟩, 0) (⟨1, 0, 0⟩, 1) (⟨0, 1, 0⟩, 2) (⟨0, 0, 1⟩, 3) ()
  have h1 : rat5 = some m := h1
  exact ⟨m, h1, h2, unmarked_of_check (of_map (f := unmarkedCheck) h1 (by decide +kernel)),
    tidy_of_check (of_map (f := tidyCheck) h1 (by decide +kernel)),
    noMarks_of_check (of_map (f := noMarksCheck) h1 (by decide +kernel))⟩

/-- All hypotheses of `C63_insert` and `C63_public`, with a point outside the first tet and inside its
circumsphere; the cavity has two tets, which six replace. -/
example : ∃ m, rat5 = some m ∧ Distances exGeo ∧ Invariant exGeo ∧ Ready m ∧ m.numVertices = some 4 ∧
    (∀ v x, m.vertices.get v = some x → InMesh m v) ∧ Fillable m [0, 1] ∧
    (m.addVertexDelaunay exGeo id 40 ⟨1, 1, 1 / 2⟩ 4).map (fun r => (r.2, r.1.numTets, r.1.numVertices)) =
      some (4, some 9, some 5) := by
  obtain ⟨m, h1, h2⟩ := rat5_ready
  refine ⟨m, h1, exact_distances _ _ _ _ _, exact_invariant _ _ _ _ _, h2,
    of_map (f := fun m => m.numVertices) h1 (by decide +kernel), ?_,
    fillable_of_check (of_map (f := fun m => fillableCheck m [0, 1]) h1 (by decide +kernel)),
    of_map (f := fun m => (m.addVertexDelaunay exGeo id 40 ⟨1, 1, 1 / 2⟩ 4).map fun r =>
      (r.2, r.1.numTets, r.1.numVertices)) h1 (by decide +kernel)⟩
  intro v x hx
  have := of_map (f := fun m => m.vertices.keys.all fun v => (m.vertices.get v).all fun x => decide (m.first x.tet = some v))
    (b := true) h1 (by decide +kernel)
  have := List.all_eq_true.1 this v (IdMap.mem_keys.2 (by rw [hx]; rfl))
  rw [hx] at this
  exact ⟨x.tet, by simpa using this⟩

/-- The search can give up although the mesh is good: a duplicate of a vertex is on all spheres around it. -/
example : ∃ m, rat5 = some m ∧ Ready m ∧ m.addVertexDelaunay exGeo id 40 ⟨1, 0, 0⟩ 4 = none := by
  obtain ⟨m, h1, h2⟩ := rat5_ready
  have := of_map (f := fun m => (m.addVertexDelaunay exGeo id 40 ⟨1, 0, 0⟩ 4).isNone) (b := true) h1 (by decide +kernel)
  exact ⟨m, h1, h2, by simpa using this⟩

end Tet
