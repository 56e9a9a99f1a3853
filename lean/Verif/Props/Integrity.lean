import Verif.Proofs.Integrity
import Verif.Props.Delaunay

/-!
# What `assert_integrity` guarantees (C64)
-/

namespace Tet
open Spec
variable {P V T D R H : Type}

/-- C64: for a mesh whose oriented triangles are in one tet each, whose edges have one ring of tets each and whose
tets only have vertices that exist and are attached, `assert_integrity(false)` passes exactly if the mesh is
consistent and every vertex is attached to a tet. -/
theorem C64_iff {m : Mesh P V T} {entries : List V3} (hw : m.vertices.WF ∧ m.edges.WF ∧ m.tets.WF)
    (hl : ∀ w v, m.first w = some v → v = GHOST ∨ ∃ x, m.vertices.get v = some x ∧ m.first x.tet = some v)
    (hu : ∀ w w' s, m.tri w = some s → m.tri w' = some s → w' = w)
    (hr : ∀ w w' e, m.edge w = some e → m.edge w' = some e → SameRing m w w')
    (he : ∀ s, s ∈ entries ↔ (m.triMap s).isSome) :
    m.assertIntegrity entries none = true ↔ Consistent m ∧ ∀ v x, m.vertices.get v = some x → m.first x.tet = some v := by
  rw [integrity_iff hw ?_ ?_ ?_ he]
  · exact and_congr ⟨fun h => h.toSpec, fun h => h.toT⟩ Iff.rfl
  · intro k t i ht
    have : ∀ i : Fin 4, ∃ e : Code, firstIdx e = i := by decide
    obtain ⟨e, rfl⟩ := this i
    rcases hl ⟨k, e⟩ (t.first e) (by simp [Mesh.first, ht]) with h | ⟨x, h1, h2⟩
    · exact .inl h
    · obtain ⟨t', h3, h4⟩ := Option.map_eq_some_iff.1 h2
      exact .inr ⟨x, t', h1, h3, h4⟩
  · intro k t e k' t' e' ht ht' h
    have := hu ⟨k, e⟩ ⟨k', e'⟩ (t.tri e) (by simp [Mesh.tri, ht]) (by simp [Mesh.tri, ht', h])
    simpa using this
  · intro k t e k' t' e' ht ht' h
    rw [← sameRing_iff]
    exact hr ⟨k, e⟩ ⟨k', e'⟩ (t.edge e) (by simp [Mesh.edge, ht]) (by simp [Mesh.edge, ht', h])

/-- C64: a consistent mesh whose vertices are all attached passes. -/
theorem C64_accepts {m : Mesh P V T} {entries : List V3} (hm : Consistent m)
    (hv : ∀ v x, m.vertices.get v = some x → m.first x.tet = some v) (he : ∀ s, s ∈ entries ↔ (m.triMap s).isSome) :
    m.assertIntegrity entries none = true :=
  have hc := hm.toT
  (integrity_iff hm.stored hc.vlive hc.tunique hc.ring he).2 ⟨hc, hv⟩

/-- C64: what is guaranteed when it passes, for any mesh. -/
theorem C64_guarantees {m : Mesh P V T} {entries : List V3} {orient : Option (V4 → Bool)}
    (h : m.assertIntegrity entries orient = true) :
    (∀ v x, m.vertices.get v = some x → m.first x.tet = some v) ∧
    (∀ w a b c d, m.tet4 w = some (a, b, c, d) → [a, b, c, d].Nodup ∧ ∃ w' w'' d' e ue, m.toAdj w = some w' ∧
      m.tet4 w' = some (b, a, c, d') ∧ m.toAdj w' = some w'' ∧ m.tet4 w'' = some (a, b, c, d) ∧
      m.triLocked w' = m.triLocked w ∧ m.undirEdge w = some e ∧ m.edges.get e = some ue ∧ ue.vertices = (min a b, max a b)) ∧
    (∀ e e' ue ue', m.edges.get e = some ue → m.edges.get e' = some ue' → ue.vertices = ue'.vertices → e = e') ∧
    (∀ e ue, m.edges.get e = some ue → ∃ w, m.undirEdge w = some e) ∧
    ∀ f, orient = some f → ∀ k q, m.tet4 (Mesh.walkerFromTetId k) = some q → f q = true := by
  simp only [Mesh.assertIntegrity, Bool.and_eq_true, List.all_eq_true, IdMap.mem_keys, IdMap.mem_values] at h
  obtain ⟨⟨⟨⟨h1, h2⟩, h34⟩, h5⟩, h6⟩ := h
  obtain ⟨h3, h4⟩ := edgeSetOk_unique h34
  refine ⟨?_, ?_, ?_, ?_, ?_⟩
  · intro v x hx
    have := h1 v (by rw [hx]; rfl)
    simp only [Mesh.vertexOk, hx, Option.any_some, Bool.and_eq_true, decide_eq_true_eq] at this
    exact this.2
  · rintro ⟨k, e⟩ a b c d hq
    obtain ⟨t, ht, hq⟩ := Mesh.tet4_iff.1 hq
    obtain ⟨k1, -, k3, k4⟩ := (tetOk_iff orient ht).1 (h6 k (by rw [ht]; rfl))
    obtain ⟨tA, tB, ue, a1, a2, a3, a4, a5, a6, -⟩ := (walkerOk_iff ht e).1 (k4 e)
    have hnd := (t.inj_iff_nodup e).1 k1
    simp only [Tet.tet, Prod.mk.injEq] at hq
    obtain ⟨q1, q2, q3, q4⟩ := hq
    rw [q1, q2, q3, q4] at hnd
    refine ⟨hnd, t.adj e, tA.adj (t.adj e).edge, tA.fourth (t.adj e).edge, t.undirEdge e, ue, by simp [Mesh.toAdj, ht], ?_,
      by simp only [Mesh.toAdj, a1, Option.map_some], ?_, ?_, by simp [Mesh.undirEdge, ht], a3, ?_⟩
    · simp only [Tet.tri, Prod.mk.injEq] at a4
      simp only [Mesh.tet4, a1, Option.map_some, Tet.tet, a4, q1, q2, q3]
    · rw [Mesh.tet4, a2, Option.map_some, a5, Tet.tet, q1, q2, q3, q4]
    · obtain ⟨c', c1, c2⟩ := code4_face e
      obtain ⟨tA', b1, b2⟩ := (lockOk_iff ht c').1 (k3 c' c1)
      rw [t.adj_tet, c2, ← t.adj_tet, a1] at b1
      cases b1
      rw [t.face_adj, c2, ← t.face_adj] at b2
      simp only [Mesh.triLocked, ht, a1, Option.map_some, b2]
    · have := h2 ue ⟨_, a3⟩
      simp only [Mesh.edgeOk, Bool.and_eq_true, decide_eq_true_eq] at this
      rw [Tet.edge, q1, q2] at a6
      rw [min_max_sorted2, a6, sorted2, if_neg (Nat.not_lt.2 this.2.le)]
  · intro e e' ue ue' a b h
    exact h3 e e' ue ue' a b (by rw [h])
  · intro e ue hue
    obtain ⟨k, t, hk, i, hi⟩ := h4 e ue hue
    obtain ⟨c, hc⟩ := undirIdx_surj i
    exact ⟨⟨k, c⟩, by simp [Mesh.undirEdge, hk, Tet.undirEdge, hc, hi]⟩
  · intro f hf k q hq
    obtain ⟨t, ht, hq⟩ := Mesh.tet4_iff.1 hq
    rw [← hq]
    exact ((tetOk_iff orient ht).1 (h6 k (by rw [show m.tets.get k = some t from ht]; rfl))).2.1 f hf

/-- C64: if `delaunay_from_vertices` returns, it has passed the check with the orientation: in exact arithmetic, all
tets have positive orientation (ghost tets with the centre of the mesh as the ghost vertex, see C35), every vertex
is attached to a tet, and the rest of `C64_guarantees` holds. -/
theorem C64_delaunay {K : Type} [Field K] [LinearOrder K] [IsStrictOrderedRing K] {norm : Pt K → K} {tol : K} {sim} {key : List (Pt K) → Pt K → H} {leH}
    {order : List TId → List TId} {fuel : Nat} {nan origin : Pt K} {points : List (Pt K × V)} {dt : T} {m : Mesh (Pt K) V T}
    (h : Mesh.delaunayFromVertices (exactGeo norm tol sim key leH) order fuel nan origin points dt = some m) :
    (∃ f, m.assertIntegrity [] (some f) = true) ∧
    (∀ w a b c d, m.tet4 w = some (a, b, c, d) → ∃ x, m.orient a b c d = some x ∧ 0 < x) ∧
    ∀ v, v < points.length → ∃ w, m.first w = some v := by
  have hv := C43_vertices h
  unfold Mesh.delaunayFromVertices at h
  obtain ⟨l, -, h⟩ := Option.bind_eq_some_iff.1 h
  have hi : m.assertIntegrity [] (some ((exactGeo norm tol sim key leH).orientOk m.center m.position)) = true := by
    unfold Mesh.delaunayFromSorted at h
    obtain ⟨first, -, h⟩ := Option.bind_eq_some_iff.1 h
    obtain ⟨⟨vs, ks⟩, h1, h⟩ := Option.bind_eq_some_iff.1 h
    obtain ⟨l1, h2, h⟩ := Option.bind_eq_some_iff.1 h
    obtain ⟨m1, h3, h⟩ := Option.bind_eq_some_iff.1 h
    obtain ⟨v3, h4, h⟩ := Option.bind_eq_some_iff.1 h
    obtain ⟨m2, h5, h⟩ := Option.bind_eq_some_iff.1 h
    obtain ⟨ps, h6, h⟩ := Option.bind_eq_some_iff.1 h
    simp only at h
    split_ifs at h with hint
    cases h
    exact hint
  obtain ⟨g1, g2, -, -, g5⟩ := C64_guarantees hi
  refine ⟨⟨_, hi⟩, ?_, ?_⟩
  · intro w a b c d hw
    obtain ⟨t, ht, -⟩ := Mesh.tet4_iff.1 hw
    have h3 := tet4_at ht
    have hs := tet_same (w := ⟨w.tet, 3⟩) (w' := w) rfl h3 hw
    have ho := orient_same (m := m) hs
    rw [ho]
    have := g5 _ rfl w.tet _ h3
    simp only [exactGeo] at this
    have e : ∀ v, (if v = GHOST then some m.center else m.position v) = m.idxOri v := fun v => rfl
    simp only [e] at this
    rw [Mesh.orient]
    revert this
    cases m.idxOri (t.vertices 0) with
    | none => intro h; cases h
    | some p0 =>
      cases m.idxOri (t.vertices 1) with
      | none => intro h; cases h
      | some p1 =>
        cases m.idxOri (t.vertices 2) with
        | none => intro h; cases h
        | some p2 =>
          cases m.idxOri (t.vertices 3) with
          | none => intro h; cases h
          | some p3 =>
            intro h
            simp only [Option.bind_eq_bind, Option.bind_some, Option.pure_def, Option.getD_some, decide_eq_true_eq] at h
            exact ⟨_, rfl, h⟩
  · intro v hlt
    have := hv.2.2 v
    rw [List.getElem?_eq_getElem hlt, Option.map_eq_some_iff] at this
    obtain ⟨x, hx, -⟩ := this
    exact ⟨x.tet, g1 v x hx⟩

/-! ### What it does not see -/

/-- `five` with every tet stored twice. -/
def fiveTwice : Option (Mesh Nat Nat Unit) := five.map fun m =>
  { m with tets := ⟨⟨m.tets.map.slots ++ m.tets.map.slots, 10⟩, []⟩ }

/-- C64: the check passes for a mesh in which every tet is stored twice, although crossing a triangle twice
then leads from a copy to the original. -/
theorem C64_not_consistent : ∃ m, fiveTwice = some m ∧ m.assertIntegrity [] none = true ∧
    (∃ w w', w.tet = 5 ∧ m.toAdj w = some w' ∧ m.toAdj w' = some ⟨0, w.edge⟩) ∧ ¬ Consistent m := by
  have h0 : fiveTwice.isSome = true := by decide +kernel
  obtain ⟨m, h1⟩ := Option.isSome_iff_exists.1 h0
  have h2 := of_map (f := fun m => m.assertIntegrity [] none) (b := true) h1 (by decide +kernel)
  have h3 := of_map (f := fun m => (m.toAdj ⟨5, 0⟩).bind fun w' => m.toAdj w') (b := some ⟨0, 0⟩) h1 (by decide +kernel)
  obtain ⟨w', h4, h5⟩ := Option.bind_eq_some_iff.1 h3
  refine ⟨m, h1, h2, ⟨⟨5, 0⟩, w', rfl, h4, h5⟩, ?_⟩
  intro hc
  obtain ⟨t, ht, -⟩ := Option.map_eq_some_iff.1 h4
  obtain ⟨w'', -, -, -, a1, a2, -⟩ := hc.adjacent ⟨5, 0⟩ (by rw [Live, ht]; rfl)
  rw [h4] at a1
  cases a1
  rw [h5] at a2
  simp at a2

/-- C64: nor does the check notice that a vertex of the tets does not exist. -/
theorem C64_missing_vertex : ∃ m w, five.map (fun m => { m with vertices := ⟨⟨m.vertices.map.slots.take 3, 3⟩, []⟩ }) = some m ∧
    m.assertIntegrity [] none = true ∧ m.first w = some 3 ∧ m.vertices.get 3 = none := by
  have h0 : (five.map (fun m => { m with vertices := ⟨⟨m.vertices.map.slots.take 3, 3⟩, []⟩ })).isSome = true := by decide +kernel
  obtain ⟨m, h1⟩ := Option.isSome_iff_exists.1 h0
  refine ⟨m, ⟨0, 0⟩, h1, of_map (f := fun m => m.assertIntegrity [] none) h1 (by decide +kernel),
    of_map (f := fun m => m.first ⟨0, 0⟩) h1 (by decide +kernel), ?_⟩
  have := of_map (f := fun m => (m.vertices.get 3).isNone) (b := true) h1 (by decide +kernel)
  simpa using this

/-- The hypotheses of `C64_iff` hold for the mesh of five tets; it passes. -/
example : ∃ m, five = some m ∧ Consistent m ∧ (∀ v x, m.vertices.get v = some x → m.first x.tet = some v) ∧
    (∀ s, s ∈ ([] : List V3) ↔ (m.triMap s).isSome) ∧ m.assertIntegrity [] none = true := by
  obtain ⟨m, h1, h2⟩ := five_ok
  have h3 := of_map (f := fun m => m.assertIntegrity [] none) (b := true) h1 (by decide +kernel)
  refine ⟨m, h1, h2, (C64_guarantees h3).1, ?_, h3⟩
  have h4 : five.map (·.triMap) = some fun _ => none := rfl
  have h5 := of_map (f := fun m => m.triMap) h1 h4
  intro s
  simp [h5]

end Tet
