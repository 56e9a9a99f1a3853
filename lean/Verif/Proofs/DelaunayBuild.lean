import Verif.Proofs.HullCount
import Verif.Props.DelaunayMesh
import Verif.Proofs.Integrity

/-!
# Building a Delaunay mesh from points
-/

namespace Tet
open Spec Vec5
variable {P V T H : Type} {K : Type} [Field K] [LinearOrder K] [IsStrictOrderedRing K]

theorem subperm_map {α β : Type} (f : α → β) {l l' : List α} (h : l.Subperm l') : (l.map f).Subperm (l'.map f) := by
  obtain ⟨l1, h1, h2⟩ := h
  exact ⟨l1.map f, h1.map f, h2.map f⟩

theorem quad_self (f : Fin 4 → VId) : quad (f 0, f 1, f 2, f 3) = f := by
  funext i
  rcases fin4 i with rfl | rfl | rfl | rfl <;> rfl

/-! ### The first five tets -/

theorem IsNew.ready {m : Mesh P V T} {vi : Fin 5 → VId} {dt : T} (h : IsNew m vi dt)
    (hv : ∀ v x, m.vertices.get v = some x → x.flags = {}) (hg : m.ghostFlags = {}) : Ready m := by
  have hT : ∀ k t, m.tets.get k = some t → t.flags = {} := by
    intro k t ht
    obtain ⟨j, -, rfl⟩ := h.ofT ht
    rfl
  have hE : ∀ k t, m.edges.get k = some t → t.boundary = false ∧ t.boundaryWalker.tet = idMax := by
    intro k t ht
    rw [h.getE] at ht
    split_ifs at ht
    cases ht
    exact ⟨rfl, rfl⟩
  refine ⟨h.consistentT.toSpec, fun k t ht => ?_, ⟨fun k t ht => ?_, hE, fun v x hx => ?_, ?_⟩, fun k t ht => ?_,
    fun v x hx => ?_, ?_⟩
  · rw [hT k t ht]; simp
  · rw [hT k t ht]; simp
  · rw [hv v x hx]
  · rw [hg]
  · rw [hT k t ht]
  · rw [hv v x hx]
  · rw [hg]

theorem IsNew.inMesh {m : Mesh P V T} {vi : Fin 5 → VId} {dt : T} (h : IsNew m vi dt) (v : VId) :
    InMesh m v ↔ ∃ i, v = vi i := by
  constructor
  · rintro ⟨w, hw⟩
    unfold Mesh.first at hw
    obtain ⟨t, ht, rfl⟩ := Option.map_eq_some_iff.1 hw
    obtain ⟨j, -, rfl⟩ := h.ofT ht
    exact ⟨_, rfl⟩
  · rintro ⟨i, rfl⟩
    have : ∀ i : Fin 5, ∃ (j : Fin 5) (e : Code), newVertices j (firstIdx e) = i := by decide
    obtain ⟨j, e, rfl⟩ := this i
    refine ⟨⟨j.val, e⟩, ?_⟩
    simp only [Mesh.first, h.getN j, Option.map_some]
    rfl

theorem IsNew.hull {m : Mesh P V T} {vi : Fin 5 → VId} {dt : T} (h : IsNew m vi dt) {vec : VId → Vec5 K}
    (hc : Consistent m) (hpos : 0 < det (vec (vi 0)) (vec (vi 1)) (vec (vi 2)) (vec (vi 3)) (vec (vi 4))) :
    Hull m (fun v => ∃ i, v = vi i) vec where
  cons := hc
  mem := fun w v hw => (h.inMesh v).1 ⟨w, hw⟩
  five := by
    rintro ⟨a, b, c, d⟩
    by_contra hno
    push_neg at hno
    have h1 : (List.finRange 5).map vi ⊆ [a, b, c, d] := by
      intro v hv
      obtain ⟨i, -, rfl⟩ := List.mem_map.1 hv
      exact hno _ ⟨i, rfl⟩
    have h2 := (List.subperm_of_subset ((List.nodup_finRange 5).map h.inj) h1).length_le
    simp at h2
  pos := by
    intro w q v hw hv hn
    obtain ⟨i, rfl⟩ := hv
    obtain ⟨t, ht, hq⟩ := Mesh.tet4_iff.1 hw
    obtain ⟨j, -, rfl⟩ := h.ofT ht
    have e1 := (newTet vi (fun k => k.val) dt j).rearr_tet w.edge
    rw [hq] at e1
    have e2 : SameTet (vi (newVertices j 0), vi (newVertices j 1), vi (newVertices j 2), vi (newVertices j 3)) q := by
      have := quad_self (newTet vi (fun k => k.val) dt j).vertices
      rw [← this] at e1
      exact e1
    rw [side_same vec e2]
    have hn' : ∀ l, vi i ≠ vi (newVertices j l) := by
      intro l e
      refine hn ?_
      rw [e, ← hq]
      have : ∀ (l : Fin 4) (c : Code), l = firstIdx c ∨ l = secondIdx c ∨ l = thirdIdx c ∨ l = face c := by decide
      simp only [List.mem_cons, List.not_mem_nil, or_false]
      rcases this l w.edge with h | h | h | h
      · exact .inl (by rw [h]; rfl)
      · exact .inr (.inl (by rw [h]; rfl))
      · exact .inr (.inr (.inl (by rw [h]; rfl)))
      · exact .inr (.inr (.inr (by rw [h]; rfl)))
    have hi : ∀ l, i ≠ newVertices j l := fun l e => hn' l (by rw [e])
    have key : ∀ (j i : Fin 5), (∀ l, i ≠ newVertices j l) →
      (j = 0 ∧ i = 4) ∨ (j = 1 ∧ i = 0) ∨ (j = 2 ∧ i = 1) ∨ (j = 3 ∧ i = 2) ∨ (j = 4 ∧ i = 3) := by decide
    rcases key j i hi with ⟨rfl, rfl⟩ | ⟨rfl, rfl⟩ | ⟨rfl, rfl⟩ | ⟨rfl, rfl⟩ | ⟨rfl, rfl⟩
    · exact hpos
    · show 0 < det (vec (vi 1)) (vec (vi 2)) (vec (vi 3)) (vec (vi 4)) (vec (vi 0))
      rw [det_swap3, det_swap2, det_swap1, det_swap0, neg_neg, neg_neg]
      exact hpos
    · show 0 < det (vec (vi 0)) (vec (vi 3)) (vec (vi 2)) (vec (vi 4)) (vec (vi 1))
      rw [det_swap3, det_swap2, det_swap1, det_swap2, neg_neg, neg_neg]
      exact hpos
    · show 0 < det (vec (vi 3)) (vec (vi 0)) (vec (vi 1)) (vec (vi 4)) (vec (vi 2))
      rw [det_swap0, det_swap1, det_swap3, det_swap2, neg_neg, neg_neg]
      exact hpos
    · show 0 < det (vec (vi 2)) (vec (vi 1)) (vec (vi 0)) (vec (vi 4)) (vec (vi 3))
      rw [det_swap3, det_swap0, det_swap1, det_swap0, neg_neg, neg_neg]
      exact hpos

theorem IsNew.delaunay {m : Mesh (Pt K) V T} {vi : Fin 5 → VId} {dt : T} (h : IsNew m vi dt) (hc : Consistent m)
    {p0 p1 p2 p3 : Pt K} (h0 : At m (vi 0) p0) (h1 : At m (vi 1) p1) (h2 : At m (vi 2) p2) (h3 : At m (vi 3) p3)
    (hp : 0 < orient3d p0 p1 p2 p3) : Delaunay m := by
  have hu := h.hull (vec := pvec m.position) hc (by
    rw [pvec_at h0, pvec_at h1, pvec_at h2, pvec_at h3, h.ghost, pvec_ghost, det_orient]
    exact hp)
  have hS : (fun v => ∃ i, v = vi i) = InM m := by
    funext v
    refine propext ((h.inMesh v).symm.trans ⟨.inl, ?_⟩)
    rintro (h' | rfl)
    · exact h'
    · exact (h.inMesh _).2 ⟨4, h.ghost.symm⟩
  rw [hS] at hu
  have hg := h.getN 0
  refine hu.toDelaunay ⟨⟨0, 0⟩, _, _, _, _, Mesh.tet4_iff.2 ⟨_, hg, rfl⟩, ?_⟩
  have : ∀ i : Fin 5, i ≠ 4 → GHOST ≠ vi i := fun i hi e => hi (h.inj (e.symm.trans h.ghost.symm))
  simp only [List.mem_cons, List.not_mem_nil, or_false, not_or]
  exact ⟨this _ (by decide), this _ (by decide), this _ (by decide), this _ (by decide)⟩

/-! ### Inserting the other points -/

/-- The mesh while it is built: `pre` are the points that are in it. -/
structure Built (m : Mesh (Pt K) V T) (pre : List (VId × Pt K × V)) (n : Nat) : Prop where
  ready : Ready m
  delaunay : Delaunay m
  track : m.trackTriMap = false
  inMesh : ∀ v, InMesh m v ↔ (∃ x ∈ pre, v = x.1) ∨ v = GHOST
  payload : ∀ x ∈ pre, (m.vertices.get x.1).map (fun y => (y.position, y.value)) = some x.2
  stored : ∀ u : Nat, (m.vertices.get u).isSome ↔ u < n

theorem size_some {m : Mesh P V T} (hm : Consistent m) : ∃ nV nT nE, m.numVertices = some nV ∧ m.numTets = some nT ∧
    m.numEdges = some nE := by
  have h := hm.toT.stored
  exact ⟨_, _, _, h.1.len_eq, h.2.2.len_eq, h.2.1.len_eq⟩

theorem Built.vertices {m : Mesh (Pt K) V T} {pre : List (VId × Pt K × V)} {n : Nat} (B : Built m pre n) :
    m.numVertices = some n := by
  have h := B.ready.consistent.toT.stored.1
  rw [Mesh.numVertices, h.len_eq, IdMap.size_of_keys h (List.range n) List.nodup_range, List.length_range]
  intro j
  rw [List.mem_range, B.stored]

theorem Built.at {m : Mesh (Pt K) V T} {pre : List (VId × Pt K × V)} {n : Nat} (B : Built m pre n) {v : VId} {p : Pt K}
    (hv : InMesh m v) (hp : At m v p) : ∃ x ∈ pre, x.1 = v ∧ x.2.1 = p := by
  rcases (B.inMesh v).1 hv with ⟨x, hx, rfl⟩ | h
  · refine ⟨x, hx, rfl, ?_⟩
    obtain ⟨-, y, hy, rfl⟩ := hp
    have := B.payload x hx
    rw [hy] at this
    exact (congrArg Prod.fst (Option.some.inj this)).symm
  · exact absurd h hp.1

theorem Built.off {m : Mesh (Pt K) V T} {pre rest : List (VId × Pt K × V)} {n : Nat} (B : Built m pre n)
    {x : VId × Pt K × V} (hn : ((pre ++ x :: rest).map (·.1)).Nodup)
    (hgp : GeneralPosition ((pre ++ x :: rest).map (·.2.1))) : Off m x.2.1 := by
  have hx : ∀ y ∈ pre, y.1 ≠ x.1 := by
    rw [List.map_append, List.nodup_append] at hn
    intro y hy
    exact hn.2.2 _ (List.mem_map.2 ⟨y, hy, rfl⟩) _ (by simp)
  have hsub : ∀ l : List (VId × Pt K × V), (l.map (·.1)).Nodup → (∀ y ∈ l, y ∈ pre) →
      ((l ++ [x]).map (·.2.1)).Subperm ((pre ++ x :: rest).map (·.2.1)) := by
    intro l h1 h2
    refine subperm_map _ (List.subperm_of_subset ?_ ?_)
    · rw [List.nodup_append]
      refine ⟨h1.of_map, by simp, ?_⟩
      rintro a ha b hb rfl
      rw [List.mem_singleton] at hb
      exact hx a (h2 a ha) (by rw [hb])
    · intro y hy
      simp only [List.mem_append, List.mem_cons, List.not_mem_nil, or_false] at hy ⊢
      rcases hy with hy | hy
      · exact .inl (h2 y hy)
      · exact .inr (.inl hy)
  constructor
  · intro w a b c d pa pb pc pd h ha hb hc hd o r2 hs
    obtain ⟨i1, i2, i3, i4⟩ := inMesh_tet h
    obtain ⟨ea, e1, rfl, rfl⟩ := B.at i1 ha
    obtain ⟨eb, e2, rfl, rfl⟩ := B.at i2 hb
    obtain ⟨ec, e3, rfl, rfl⟩ := B.at i3 hc
    obtain ⟨ed, e4, rfl, rfl⟩ := B.at i4 hd
    refine hgp.spheres _ rfl (hsub [ea, eb, ec, ed] (B.ready.consistent.distinct _ _ _ _ _ h) ?_) o r2 hs
    intro y hy
    simp only [List.mem_cons, List.not_mem_nil, or_false] at hy
    rcases hy with rfl | rfl | rfl | rfl <;> assumption
  · intro w a b c pa pb pc h ha hb hc hs
    obtain ⟨i1, i2, i3, -⟩ := inMesh_tet h
    obtain ⟨ea, e1, rfl, rfl⟩ := B.at i1 ha
    obtain ⟨eb, e2, rfl, rfl⟩ := B.at i2 hb
    obtain ⟨ec, e3, rfl, rfl⟩ := B.at i3 hc
    refine hgp.planes _ rfl (hsub [ea, eb, ec] ?_ ?_) hs
    · have := B.ready.consistent.distinct _ _ _ _ _ h
      simp only [List.nodup_cons, List.mem_cons, List.not_mem_nil, or_false, not_or, not_false_eq_true, List.nodup_nil,
        and_true, List.map_cons, List.map_nil] at this ⊢
      exact ⟨⟨this.1.1, this.1.2.1⟩, this.2.1.1⟩
    · intro y hy
      simp only [List.mem_cons, List.not_mem_nil, or_false] at hy
      rcases hy with rfl | rfl | rfl <;> assumption

theorem Built.step {norm : Pt K → K} {tol : K} {sim} {key : List (Pt K) → Pt K → H} {leH} {order : List TId → List TId}
    (ho : ∀ l, (order l).Perm l) {m : Mesh (Pt K) V T} {pre rest : List (VId × Pt K × V)} {n : Nat} (B : Built m pre n)
    {x : VId × Pt K × V} (hn : ((pre ++ x :: rest).map (·.1)).Nodup)
    (hgp : GeneralPosition ((pre ++ x :: rest).map (·.2.1))) (hlt : ∀ y ∈ pre ++ x :: rest, y.1 < n)
    (room : 13 * (n * (n + 1)) ≤ idMax) {s : VId × Pt K × V} (hs : s ∈ pre) :
    ∃ N m', (∀ fuel ≥ N, m.addVertexDelaunayInternal (exactGeo norm tol sim key leH) order fuel (some x.1) x.2.1 x.2.2 s.1 =
      some (m', x.1)) ∧ Built m' (pre ++ [x]) n := by
  have hm := B.ready.consistent
  obtain ⟨-, nT, nE, -, hT, hE⟩ := size_some hm
  have c1 := C72_size B.delaunay hm B.vertices hT
  have c2 := C72_edges hm B.vertices hE
  have hmax : n ≤ idMax := by nlinarith
  have hne : ∀ y ∈ pre ++ x :: rest, y.1 ≠ GHOST := fun y hy => ((hlt y hy).trans_le hmax).ne
  have hxm : x ∈ pre ++ x :: rest := by simp
  have hout : ¬ InMesh m x.1 := by
    intro h
    rcases (B.inMesh _).1 h with ⟨y, hy, e⟩ | h
    · rw [List.map_append, List.nodup_append] at hn
      exact hn.2.2 _ (List.mem_map.2 ⟨y, hy, rfl⟩) _ (by simp) e.symm
    · exact hne x hxm h
  obtain ⟨y, hy⟩ := Option.isSome_iff_exists.1 ((B.stored x.1).2 (hlt x hxm))
  have hyt : y.tet.tet = idMax := by
    rcases hm.vertexRef _ _ hy with h | h
    · exact h
    · exact absurd ⟨_, h⟩ hout
  obtain ⟨N, m', h1, h2, h3, h4, -, h5⟩ := C69_stored (norm := norm) (tol := tol) (sim := sim) (key := key) (leH := leH) ho
    B.ready B.delaunay (B.off hn hgp) x.2.2 hT hE (by nlinarith) (by nlinarith) hy hyt
    (start := s.1) ((B.inMesh _).2 (.inl ⟨s, hs, rfl⟩)) (hne s (by simp [hs]))
  refine ⟨N, m', h1, h2, h3, (VFrame.addVertex_track (h1 N le_rfl)).trans B.track, ?_, ?_, ?_⟩
  · intro v
    rw [h4, B.inMesh]
    simp only [List.mem_append, List.mem_singleton]
    constructor
    · rintro ((⟨z, hz, rfl⟩ | h) | rfl)
      · exact .inl ⟨z, .inl hz, rfl⟩
      · exact .inr h
      · exact .inl ⟨x, .inr rfl, rfl⟩
    · rintro (⟨z, hz | rfl, rfl⟩ | h)
      · exact .inl (.inl ⟨z, hz, rfl⟩)
      · exact .inr rfl
      · exact .inl (.inr h)
  · intro z hz
    rw [h5]
    rw [List.mem_append, List.mem_singleton] at hz
    rcases hz with hz | rfl
    · rw [if_neg, B.payload z hz]
      intro e
      exact hout ((B.inMesh _).2 (.inl ⟨z, hz, e.symm⟩))
    · rw [if_pos rfl]
  · intro u
    have := h5 u
    split_ifs at this with hu
    · subst hu
      rw [← Option.isSome_map (f := fun y : Vertex (Pt K) V => (y.position, y.value)), this]
      simpa using hlt x hxm
    · rw [← Option.isSome_map (f := fun y : Vertex (Pt K) V => (y.position, y.value)), this, Option.isSome_map, B.stored]

theorem Built.fold {norm : Pt K → K} {tol : K} {sim} {key : List (Pt K) → Pt K → H} {leH} {order : List TId → List TId}
    (ho : ∀ l, (order l).Perm l) {n : Nat} (room : 13 * (n * (n + 1)) ≤ idMax) :
    ∀ (rest pre : List (VId × Pt K × V)) {m : Mesh (Pt K) V T}, Built m pre n → ((pre ++ rest).map (·.1)).Nodup →
      GeneralPosition ((pre ++ rest).map (·.2.1)) → (∀ y ∈ pre ++ rest, y.1 < n) → ∀ s ∈ pre,
    ∃ N m', (∀ fuel ≥ N, (rest.zip (s.1 :: rest.map (·.1))).foldlM (fun (m : Mesh (Pt K) V T) x => do
      let (m, _) ← m.addVertexDelaunayInternal (exactGeo norm tol sim key leH) order fuel (some x.1.1) x.1.2.1 x.1.2.2 x.2
      return m) m = some m') ∧ Built m' (pre ++ rest) n := by
  intro rest
  induction rest with
  | nil =>
    intro pre m B _ _ _ s _
    exact ⟨0, m, fun _ _ => rfl, by rwa [List.append_nil]⟩
  | cons x rest ih =>
    intro pre m B hn hgp hlt s hs
    obtain ⟨N1, m1, h1, B1⟩ := B.step (norm := norm) (tol := tol) (sim := sim) (key := key) (leH := leH) ho hn hgp hlt room hs
    have e : pre ++ x :: rest = pre ++ [x] ++ rest := by simp
    rw [e] at hn hgp hlt
    obtain ⟨N2, m2, h2, B2⟩ := ih (pre ++ [x]) B1 hn hgp hlt x (by simp)
    refine ⟨max N1 N2, m2, fun fuel hf => ?_, by rwa [e]⟩
    have h3 := h1 fuel ((le_max_left _ _).trans hf)
    have h4 := h2 fuel ((le_max_right _ _).trans hf)
    rw [List.map_cons, List.zip_cons_cons, List.foldlM_cons]
    simp only [h3, Option.bind_eq_bind, Option.bind_some]
    exact h4

end Tet
