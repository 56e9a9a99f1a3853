import Verif.Proofs.MeshFacts

/-!
# Meshes: crossing triangles (C13), new meshes (C14), the triangle index (C28), neighbours (C34)
-/

namespace Tet
open Spec
variable {P V T : Type}

/-! ## A small mesh for the examples -/

/-- The mesh made from four points; the orientation test is positive. -/
def five : Option (Mesh Nat Nat Unit) :=
  Mesh.new (fun _ _ _ _ => true) (fun _ => 0) 0 (10, 0) (11, 1) (12, 2) (13, 3) ()

/-! ## C13 -/

/-- It is enough that the four stored entries of every tet are right: then from each of the
twelve walkers of a live tet, crossing the triangle reverses the edge, keeps the third vertex
and can be undone by crossing again. -/
theorem C13_cross_and_back {m : Mesh P V T} (hm : Glued m) (w : Walker) (hw : Live m w) :
    ∃ w' a b c, m.toAdj w = some w' ∧ m.toAdj w' = some w ∧ m.tri w = some (a, b, c) ∧
      m.tri w' = some (b, a, c) := by
  obtain ⟨k, e⟩ := w
  have canon : ∀ e : Code, ∃ i : Fin 12, i.val < 4 ∧ div4 i = 0 ∧ (e = i ∨ e = nfe i ∨ e = pfe i) := by
    decide
  obtain ⟨i, hi, hd, he⟩ := canon e
  obtain ⟨w', a, b, c, h1, h2, h3, h4⟩ := hm k hw i hi
  obtain ⟨t, ht⟩ := Option.isSome_iff_exists.1 hw
  simp only at ht
  have h5 : m.toAdj ⟨k, i⟩ = some w' := by
    rw [← h1]
    simp only [Mesh.toAdj, Mesh.toAdjAe, ht, Option.map_some, Tet.adj, Tet.turn, hd]
  have rot : ∀ (w : Walker) a b c, m.tri w = some (a, b, c) →
      m.tri w.nfe = some (b, c, a) ∧ m.tri w.pfe = some (c, a, b) := by
    intro w a b c h
    obtain ⟨u, hu, hq⟩ := Mesh.tri_iff.1 h
    simp only [Tet.tri, Prod.mk.injEq] at hq
    exact ⟨Mesh.tri_iff.2 ⟨u, hu, (u.tri_nfe _).trans (by rw [hq.1, hq.2.1, hq.2.2])⟩,
      Mesh.tri_iff.2 ⟨u, hu, (u.tri_pfe _).trans (by rw [hq.1, hq.2.1, hq.2.2])⟩⟩
  have r2 := rot _ _ _ _ h2
  have r3 := rot _ _ _ _ h3
  have a1 := m.toAdj_nfe ⟨k, i⟩
  have a2 := m.toAdj_pfe ⟨k, i⟩
  have b1 := m.toAdj_nfe w'
  have b2 := m.toAdj_pfe w'
  rw [h5] at a1 a2
  rw [h4] at b1 b2
  rcases he with rfl | rfl | rfl
  · exact ⟨w', a, b, c, h5, h4, h2, h3⟩
  · exact ⟨w'.pfe, b, c, a, a1, b2, r2.1, r3.2⟩
  · exact ⟨w'.nfe, c, a, b, a2, b1, r2.2, r3.1⟩

/-- Crossing commutes with rotating the triangle: rotating forwards on one side is rotating
backwards on the other.  This needs no assumption on the mesh. -/
theorem C13_cross_rotates (m : Mesh P V T) (w : Walker) :
    m.toAdj w.nfe = (m.toAdj w).map Walker.pfe ∧ m.toAdj w.pfe = (m.toAdj w).map Walker.nfe :=
  ⟨m.toAdj_nfe w, m.toAdj_pfe w⟩

/-- `to_adj_ae` ends on the same triangle of the same tet as `to_adj`, which is a different
tet, and its triangle is the reversed one up to rotation. -/
theorem C13_cross_any_edge {m : Mesh P V T} (hm : Consistent m) (w w' : Walker)
    (h : m.toAdjAe w = some w') : w'.tet ≠ w.tet ∧
      (m.toAdj w = some w' ∨ m.toAdj w = some w'.nfe ∨ m.toAdj w = some w'.pfe) ∧
      ∃ a b c s, m.tri w = some (a, b, c) ∧ m.tri w' = some s ∧ Rotation (b, a, c) s := by
  have hT := hm.toT
  simp only [Mesh.toAdjAe, Option.map_eq_some_iff] at h
  obtain ⟨t, ht, rfl⟩ := h
  have hrot : t.adj w.edge = t.opp (face w.edge) ∨ t.adj w.edge = (t.opp (face w.edge)).nfe ∨
      t.adj w.edge = (t.opp (face w.edge)).pfe := by
    simp only [Tet.adj, Tet.turn]
    split <;> simp
  obtain ⟨u, h1, -, h3⟩ := hT.adj _ t w.edge ht
  have hu : m.tets.get (t.opp (face w.edge)).tet = some u := by rw [← Tet.adj_tet]; exact h1
  refine ⟨?_, ?_, t.first w.edge, t.second w.edge, t.third w.edge, u.tri (t.opp (face w.edge)).edge,
    Mesh.tri_iff.2 ⟨t, ht, rfl⟩, Mesh.tri_iff.2 ⟨u, hu, rfl⟩, ?_⟩
  · rw [← Tet.adj_tet]
    exact hT.adj.no_self hT.distinct ht _
  · simp only [Mesh.toAdj, ht, Option.map_some, Option.some.injEq]
    exact hrot
  · rw [← h3]
    apply Rotation.symm
    rcases hrot with h | h | h <;> rw [h]
    · exact .inl rfl
    · exact .inr (.inl (u.tri_nfe _))
    · exact .inr (.inr (u.tri_pfe _))

/-- Consistent meshes satisfy the assumption of `C13_cross_and_back`. -/
theorem C13_consistent {m : Mesh P V T} (hm : Consistent m) : Glued m := by
  intro k hk i hi
  obtain ⟨w', a, b, c, h1, h2, h3, h4⟩ := hm.adjacent ⟨k, i⟩ hk
  obtain ⟨t, ht⟩ := Option.isSome_iff_exists.1 hk
  have hd : ∀ i : Fin 12, i.val < 4 → div4 i = 0 := by decide
  refine ⟨w', a, b, c, ?_, h3, h4, h2⟩
  rw [← h1]
  simp only at ht
  simp only [Mesh.toAdj, Mesh.toAdjAe, ht, Option.map_some, Tet.adj, Tet.turn, hd i hi]

/-! ## C14 -/

/-- `TetMesh::new` succeeds and gives a consistent mesh with 4 vertices, 10 edges and 5 tets;
vertex `i` is the `i`-th argument; tet 0 has the four vertices in the order the orientation
test asks for; tets 1 to 4 join its triangles to the ghost vertex; there are no other tets. -/
theorem C14_new (orient : P → P → P → P → Bool) (centroid : P × P × P × P → P) (nan : P)
    (v0 v1 v2 v3 : P × V) (dt : T) :
    ∃ m, Mesh.new orient centroid nan v0 v1 v2 v3 dt = some m ∧ Consistent m ∧
      m.numVertices = some 4 ∧ m.numEdges = some 10 ∧ m.numTets = some 5 ∧
      (∀ i : Fin 4, ∃ x, m.vertices.get i.val = some x ∧
        (x.position, x.value) = (![v0, v1, v2, v3] : Fin 4 → P × V) i) ∧
      ∃ a b c d, (a, b, c, d) =
          (if orient v0.1 v1.1 v2.1 v3.1 then (0, 1, 2, 3) else (0, 1, 3, 2)) ∧
        m.tet4 ⟨0, 3⟩ = some (a, b, c, d) ∧
        (∀ k, m.tets.get k ≠ none ↔ k < 5) ∧
        (∀ q, HasTet m q ↔ ∃ p ∈ [(a, b, c, d), (b, c, d, GHOST), (a, d, c, GHOST),
          (d, a, b, GHOST), (c, b, a, GHOST)], SameTet p q) := by
  obtain ⟨m, vi, h1, h2, h3, h4, h5, ⟨a, b, c, d, h6, h7⟩, h8⟩ := withIds_spec orient
    (Mesh.blank nan dt : Mesh P V T)
    [(0, v0.1, v0.2), (1, v1.1, v1.2), (2, v2.1, v2.2), (3, v3.1, v3.2)] dt rfl (by simp)
    (by simp [idMax]) IdMap.WF.empty (by intro v x h; rw [Mesh.blank, IdMap.get_empty] at h; cases h)
    rfl rfl rfl
  have hsort : ([(0, v0.1, v0.2), (1, v1.1, v1.2), (2, v2.1, v2.2), (3, v3.1, v3.2)] :
      List (VId × P × V)).insertionSort (fun a b => a.1 ≤ b.1) =
      [(0, v0.1, v0.2), (1, v1.1, v1.2), (2, v2.1, v2.2), (3, v3.1, v3.2)] := by
    rfl
  rw [hsort] at h6
  simp only [List.cons.injEq, and_true] at h6
  obtain ⟨rfl, rfl, rfl, rfl⟩ := h6
  simp only at h7
  have hc := h2.consistentT
  obtain ⟨f1, f2, f3, -, -, -, -, f4⟩ := h2.facts
  have hv : ∀ i : Fin 4, ∃ x, m.vertices.get i.val = some x ∧
        (x.position, x.value) = (![v0, v1, v2, v3] : Fin 4 → P × V) i := by
    intro i
    rcases fin4 i with rfl | rfl | rfl | rfl
    · obtain ⟨w, hw⟩ := h4 (0, v0.1, v0.2) (by simp)
      exact ⟨_, hw, rfl⟩
    · obtain ⟨w, hw⟩ := h4 (1, v1.1, v1.2) (by simp)
      exact ⟨_, hw, rfl⟩
    · obtain ⟨w, hw⟩ := h4 (2, v2.1, v2.2) (by simp)
      exact ⟨_, hw, rfl⟩
    · obtain ⟨w, hw⟩ := h4 (3, v3.1, v3.2) (by simp)
      exact ⟨_, hw, rfl⟩
  have hsize : m.vertices.size = 4 := by
    rw [IdMap.size_of_keys hc.stored.1 [0, 1, 2, 3] (by simp)]
    · rfl
    · intro j
      constructor
      · simp only [List.mem_cons, List.not_mem_nil, or_false]
        rintro (rfl | rfl | rfl | rfl)
        · obtain ⟨x, hx, -⟩ := hv 0; exact Option.isSome_iff_exists.2 ⟨x, hx⟩
        · obtain ⟨x, hx, -⟩ := hv 1; exact Option.isSome_iff_exists.2 ⟨x, hx⟩
        · obtain ⟨x, hx, -⟩ := hv 2; exact Option.isSome_iff_exists.2 ⟨x, hx⟩
        · obtain ⟨x, hx, -⟩ := hv 3; exact Option.isSome_iff_exists.2 ⟨x, hx⟩
      · intro h
        by_contra hn
        rw [h5 j (by simpa using hn), Mesh.blank, IdMap.get_empty] at h
        simp at h
  have hpos : ∃ ps, m.tetPositions 0 = some ps := by
    have hg : ∀ j : Fin 4, ∃ x, m.vertices.get (vi j.castSucc) = some x := fun j => by
      obtain ⟨x, hx, -⟩ := h2.attached j; exact ⟨x, hx⟩
    obtain ⟨x0, g0⟩ := hg 0
    obtain ⟨x1, g1⟩ := hg 1
    obtain ⟨x2, g2⟩ := hg 2
    obtain ⟨x3, g3⟩ := hg 3
    have ht : m.tets.get 0 = _ := h2.getN 0
    refine ⟨(x0.position, x1.position, x2.position, x3.position), ?_⟩
    unfold Mesh.tetPositions
    refine (bind_step ht _).trans ?_
    refine (bind_step g0 _).trans ?_
    refine (bind_step g1 _).trans ?_
    refine (bind_step g2 _).trans ?_
    exact bind_step g3 _
  obtain ⟨ps, hps⟩ := hpos
  have hcc : Consistent { m with center := centroid ps } :=
    ConsistentT.toSpec ⟨hc.stored, hc.adj, hc.distinct, hc.vref, hc.vlive, hc.eptr, hc.eunique, hc.eused,
      hc.tunique, hc.ring, hc.locks, hc.tsound, hc.tcomplete⟩
  refine ⟨{ m with center := centroid ps }, ?_, hcc, ?_, ?_, ?_, hv, vi 0, vi 1, vi 2, vi 3, ?_, f3, ?_, f4⟩
  · unfold Mesh.new
    refine (bind_step h1 _).trans ?_
    exact bind_step hps _
  · exact hc.stored.1.len_eq.trans (by rw [hsize])
  · exact hc.stored.2.1.len_eq.trans (by rw [f2])
  · exact hc.stored.2.2.len_eq.trans (by rw [f1])
  · rw [h7]
    cases orient v0.1 v1.1 v2.1 v3.1 <;> rfl
  · intro k
    show m.tets.get k ≠ none ↔ _
    rw [h2.getT]
    simp

example : (five.bind fun m => m.tet4 ⟨0, 5⟩) = some (3, 0, 2, 1) ∧
    (five.bind fun m => m.toAdj ⟨0, 5⟩) = some ⟨2, 3⟩ ∧
    (five.bind fun m => m.tet4 ⟨2, 3⟩) = some (0, 3, 2, GHOST) := by decide

/-- The mesh of the examples exists and is consistent. -/
theorem five_ok : ∃ m, five = some m ∧ Consistent m := by
  obtain ⟨m, h1, h2, -⟩ := C14_new (fun _ _ _ _ : Nat => true) (fun _ => 0) 0 (10, 0) (11, 1) (12, 2)
    ((13, 3) : Nat × Nat) ()
  exact ⟨m, h1, h2⟩

example : ∃ m, five = some m ∧ Glued m ∧ Live m ⟨2, 7⟩ := by
  obtain ⟨m, h1, h2⟩ := five_ok
  refine ⟨m, h1, C13_consistent h2, ?_⟩
  have : (five.bind fun m => m.tets.get 2).isSome = true := by decide
  rw [h1] at this
  exact this

/-! ## C28 -/

/-- After turning on tracking the mesh is still consistent, nothing but the index has changed,
every oriented triangle of the mesh has an entry with a walker showing it, and every entry of
the index comes from a triangle of the mesh. -/
theorem C28_track_exact {m : Mesh P V T} (hm : Consistent m) :
    ∃ m', m.setTrackTriMap true = some m' ∧ m'.trackTriMap = true ∧ Consistent m' ∧
      m' = { m with trackTriMap := true, triMap := m'.triMap } ∧
      (∀ w s, m.tri w = some s → ∃ w' s', m'.triMap (triKey s) = some w' ∧ m'.tri w' = some s' ∧
        Rotation s s') ∧
      ∀ s w, m'.triMap s = some w → ∃ s', m.tri w = some s' ∧ triKey s' = s := by
  obtain ⟨tm, h1, h2⟩ := hm.toT.setTrack
  have hc := h2.toSpec
  refine ⟨_, h1, rfl, hc, rfl, ?_, ?_⟩
  · intro w s hs
    obtain ⟨w', hw'⟩ := hc.triMapComplete rfl w s hs
    obtain ⟨s', h3, h4⟩ := hc.triMapSound rfl _ _ hw'
    refine ⟨w', s', hw', h3, ?_⟩
    exact Rotation.trans (triKey_rotation s) (h4 ▸ Rotation.symm (triKey_rotation s'))
  · intro s w hw
    exact hc.triMapSound rfl s w hw

/-- In a consistent tracked mesh - so after every operation that keeps the mesh consistent -
the index is exact: an entry for `s` exists iff the mesh has a triangle with key `s`, and the
entry is a walker with this triangle. -/
theorem C28_index_exact {m : Mesh P V T} (hm : Consistent m) (ht : m.trackTriMap = true) (s : V3) :
    (∀ w, m.triMap s = some w → ∃ s', m.tri w = some s' ∧ triKey s' = s) ∧
      (m.triMap s = none ↔ ∀ s', triKey s' = s → ¬ HasTri m s') := by
  refine ⟨fun w => hm.triMapSound ht s w, ?_, ?_⟩
  · rintro h s' rfl ⟨w, hw⟩
    obtain ⟨w', hw'⟩ := hm.triMapComplete ht w s' hw
    rw [h] at hw'
    cases hw'
  · intro h
    cases hs : m.triMap s with
    | none => rfl
    | some w =>
      obtain ⟨s', h1, h2⟩ := hm.triMapSound ht s w hs
      exact absurd ⟨w, h1⟩ (h s' h2)

/-- Turning tracking off keeps the index as it is; it is no longer maintained. -/
theorem C28_untrack (m : Mesh P V T) :
    m.setTrackTriMap false = some { m with trackTriMap := false } := rfl

example : ∃ m m', five = some m ∧ m.setTrackTriMap true = some m' ∧
    m'.triMap (1, 3, 2) = some ⟨0, 0⟩ ∧ m'.triMap (1, 2, 3) = some ⟨1, 3⟩ ∧
    m'.triMap (0, 2, 5) = none := by
  obtain ⟨m, h1, h2⟩ := five_ok
  obtain ⟨m', h3, -⟩ := C28_track_exact h2
  have : (five.bind fun m => (m.setTrackTriMap true).map fun m =>
      (m.triMap (1, 3, 2), m.triMap (1, 2, 3), m.triMap (0, 2, 5))) =
      some (some ⟨0, 0⟩, some ⟨1, 3⟩, none) := by decide
  rw [h1, Option.bind_some, h3] at this
  simp only [Option.map_some, Option.some.injEq, Prod.mk.injEq] at this
  exact ⟨m, m', h1, h3, this⟩

/-! ## C34 -/

/-- `adjacent_tets` lists four live tets other than the tet itself. -/
theorem C34_adjacent_tets {m : Mesh P V T} (hm : Consistent m) (k : TId) (hk : Live m ⟨k, 0⟩) :
    ∃ ks, m.adjacentTets k = some ks ∧ ks.length = 4 ∧ ∀ u ∈ ks, u ≠ k ∧ Live m ⟨u, 0⟩ := by
  have hT := hm.toT
  obtain ⟨t, ht⟩ := Option.isSome_iff_exists.1 hk
  simp only at ht
  have key : ∀ f, (t.opp f).tet ≠ k ∧ Live m ⟨(t.opp f).tet, 0⟩ := by
    intro f
    obtain ⟨u, h1, -⟩ := hT.opp_back ht f
    refine ⟨?_, Option.isSome_iff_exists.2 ⟨u, h1⟩⟩
    have := hT.adj.no_self hT.distinct ht (canonCode f)
    rwa [Tet.adj_tet, face_canonCode] at this
  refine ⟨[(t.opp 0).tet, (t.opp 1).tet, (t.opp 2).tet, (t.opp 3).tet], by simp [Mesh.adjacentTets, ht], rfl, ?_⟩
  simp only [List.mem_cons, List.not_mem_nil, or_false]
  rintro u (rfl | rfl | rfl | rfl) <;> exact key _

/-- `u` is listed for `k` as often as `k` is listed for `u`. -/
theorem C34_symmetric {m : Mesh P V T} (hm : Consistent m) (k u : TId) (ks us : List TId)
    (hk : m.adjacentTets k = some ks) (hu : m.adjacentTets u = some us) :
    ks.count u = us.count k := by
  have hT := hm.toT
  simp only [Mesh.adjacentTets, Option.map_eq_some_iff] at hk hu
  obtain ⟨t, ht, rfl⟩ := hk
  obtain ⟨s, hs, rfl⟩ := hu
  rw [count4 (fun i => (t.opp i).tet), count4 (fun i => (s.opp i).tet)]
  exact le_antisymm (hT.nbr_le ht hs) (hT.nbr_le hs ht)

example : (five.bind fun m => m.adjacentTets 0) = some [1, 2, 3, 4] ∧
    (five.bind fun m => m.adjacentTets 3) = some [4, 1, 2, 0] := by decide

end Tet
