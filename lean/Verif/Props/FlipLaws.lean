import Verif.Props.Flips
import Verif.Proofs.Local
import Verif.Proofs.Steps

/-!
# Laws of flips: locality (C23), counts (C24), guards (C25), locks (C26), quality (C27)
-/

namespace Tet
open Spec
variable {P V T : Type}

/-! ## C23 -/

/-- No flip of whatever mesh changes positions, values or flags of vertices. -/
theorem C23_vertices {m m' : Mesh P V T} (hm : m.tets.WF) {w : Walker} {v : VId} {ws : List Walker}
    (h : m.flip14Unchecked w v = some (m', ws) ∨ m.flip23Unchecked w = some (m', ws) ∨
      m.flip32Unchecked w = some (m', ws) ∨ m.flip44Unchecked w = some (m', ws)) : SameVertices m m' := by
  have f23 : ∀ {m m' : Mesh P V T} {w ws}, m.tets.WF → m.flip23Unchecked w = some (m', ws) →
      SameVertices m m' ∧ m'.tets.WF := by
    intro m m' w ws hm h
    obtain ⟨o, ho, -⟩ := Option.bind_eq_some_iff.1 h
    have := flip23_loc hm ho h
    exact ⟨this.vs, this.wf⟩
  have f32 : ∀ {m m' : Mesh P V T} {w ws}, m.tets.WF → m.flip32Unchecked w = some (m', ws) →
      SameVertices m m' := by
    intro m m' w ws hm h
    obtain ⟨o1, h1, h'⟩ := Option.bind_eq_some_iff.1 h
    obtain ⟨o2, h2, -⟩ := Option.bind_eq_some_iff.1 h'
    exact (flip32_loc hm h1 h2 h).vs
  rcases h with h | h | h | h
  · exact (flip14_loc hm h).vs
  · exact (f23 hm h).1
  · exact f32 hm h
  · obtain ⟨⟨m1, ws1⟩, h1, h'⟩ := Option.bind_eq_some_iff.1 h
    obtain ⟨g1, g2⟩ := f23 hm h1
    match ws1, h' with
    | [w0, w1, w2], h' =>
      obtain ⟨⟨m2, ws2⟩, h2, h'⟩ := Option.bind_eq_some_iff.1 h'
      have g3 := f32 g2 h2
      obtain ⟨r1, -, h'⟩ := Option.bind_eq_some_iff.1 h'
      split_ifs at h'
      obtain ⟨r2, -, h'⟩ := Option.bind_eq_some_iff.1 h'
      split_ifs at h'
      obtain ⟨r3, -, h'⟩ := Option.bind_eq_some_iff.1 h'
      split_ifs at h'
      simp only [Option.pure_def, Option.some.injEq, Prod.mk.injEq] at h'
      obtain ⟨rfl, -⟩ := h'
      exact ⟨fun v => (g3.1 v).trans (g1.1 v), g3.2.1.trans g1.2.1, g3.2.2.1.trans g1.2.2.1,
        g3.2.2.2.trans g1.2.2.2⟩

/-- 1-to-4 flip, of whatever mesh: all tets stay, and only the flipped one changes vertices. -/
theorem C23_flip14 {m m' : Mesh P V T} (hm : m.tets.WF) {w : Walker} {v : VId} {ws : List Walker}
    (h : m.flip14Unchecked w v = some (m', ws)) : KeepsTets m m' [w.tet] [] :=
  (flip14_loc hm h).keep

/-- 2-to-3 flip, of whatever mesh. -/
theorem C23_flip23 {m m' : Mesh P V T} (hm : m.tets.WF) {w o : Walker} {ws : List Walker}
    (ho : m.toAdj w = some o) (h : m.flip23Unchecked w = some (m', ws)) :
    KeepsTets m m' [w.tet, o.tet] [] :=
  (flip23_loc hm ho h).keep

/-- 3-to-2 flip, of whatever mesh: one of the tets around the edge is removed. -/
theorem C23_flip32 {m m' : Mesh P V T} (hm : m.tets.WF) {w o1 o2 : Walker} {ws : List Walker}
    (s1 : m.ringStep w = some o1) (s2 : m.ringStep o1 = some o2) (h : m.flip32Unchecked w = some (m', ws)) :
    KeepsTets m m' [w.tet, o1.tet, o2.tet] [o2.tet] :=
  (flip32_loc hm s1 s2 h).keep

/-- 4-to-4 flip of a consistent mesh: one of the tets around the edge is removed. -/
theorem C23_flip44 {m m' : Mesh P V T} (hm : Consistent m) {w a1 a2 a3 : Walker} {p r : VId} {nT nE : Nat}
    {ws : List Walker} (s1 : m.ringStep w = some a1) (s2 : m.ringStep a1 = some a2)
    (s3 : m.ringStep a2 = some a3) (s4 : m.ringStep a3 = some w) (hne : a2 ≠ w)
    (f0 : m.third w = some p) (f1 : m.fourth a1 = some r) (hno : ¬ HasEdge m p r)
    (hT : m.numTets = some nT) (hE : m.numEdges = some nE) (roomT : nT < idMax) (roomE : nE < idMax)
    (h : m.flip44Unchecked w = some (m', ws)) :
    KeepsTets m m' [w.tet, a1.tet, a2.tet, a3.tet] [a2.tet] := by
  have hc := hm.toT
  obtain ⟨t, ht, rfl⟩ := Option.map_eq_some_iff.1 f0
  have hw : m.tet4 w = some (t.first w.edge, t.second w.edge, t.third w.edge, t.fourth w.edge) :=
    Mesh.tet4_iff.2 ⟨t, ht, rfl⟩
  have hl : ∃ u, m.tets.get a2.tet = some u := by
    obtain ⟨u, h1, -⟩ := Option.map_eq_some_iff.1 s3
    exact ⟨u, h1⟩
  obtain ⟨u, hu⟩ := hl
  have f2 : m.fourth a2 = some (u.fourth a2.edge) := by simp [Mesh.fourth, hu]
  obtain ⟨m'', id2, h1, hid, hnd, F, -, -, -, -, dead, -⟩ :=
    flip44_sem hc hw s1 s2 s3 s4 hne f1 f2 hno
    (by rw [numTets_eq hc hT]; exact roomT) (by rw [numEdges_eq hc hE]; exact roomE)
  rw [h] at h1
  obtain ⟨rfl, -⟩ := Prod.mk.inj (Option.some.inj h1)
  -- values: through the two flips
  obtain ⟨⟨m1, ws1⟩, h1, h'⟩ := Option.bind_eq_some_iff.1 h
  obtain ⟨o, ho, -⟩ := Option.bind_eq_some_iff.1 h1
  have L1 := flip23_loc hc.stored.2.2 ho h1
  have val : ∀ k t, m.tets.get k = some t → k ≠ a2.tet → ∃ t', m'.tets.get k = some t' ∧ t'.value = t.value := by
    match ws1, h' with
    | [w0, w1, w2], h' =>
      obtain ⟨⟨m2, ws2⟩, h2, h'⟩ := Option.bind_eq_some_iff.1 h'
      obtain ⟨r1, -, h'⟩ := Option.bind_eq_some_iff.1 h'
      split_ifs at h'
      obtain ⟨r2, -, h'⟩ := Option.bind_eq_some_iff.1 h'
      split_ifs at h'
      obtain ⟨r3, -, h'⟩ := Option.bind_eq_some_iff.1 h'
      split_ifs at h'
      simp only [Option.pure_def, Option.some.injEq, Prod.mk.injEq] at h'
      obtain ⟨rfl, -⟩ := h'
      obtain ⟨o1, g1, g'⟩ := Option.bind_eq_some_iff.1 h2
      obtain ⟨o2, g2, -⟩ := Option.bind_eq_some_iff.1 g'
      have L2 := flip32_loc L1.wf g1 g2 h2
      have hd : a2.tet = o2.tet := by
        by_contra hcon
        obtain ⟨u1, hu1, -⟩ := L1.keep _ _ hu (by simp)
        obtain ⟨u2, hu2, -⟩ := L2.keep _ _ hu1 (by simpa using hcon)
        rw [dead] at hu2
        cases hu2
      intro k t hk hne
      obtain ⟨u1, hu1, e1, -⟩ := L1.keep k t hk (by simp)
      obtain ⟨u2, hu2, e2, -⟩ := L2.keep k u1 hu1 (by rw [← hd]; simpa using hne)
      exact ⟨u2, hu2, e2.trans e1⟩
  intro k t hk hd
  obtain ⟨t', h2, h3⟩ := val k t hk (by simpa using hd)
  refine ⟨t', h2, h3, fun hS => ?_⟩
  have h4 : k ≠ id2 := by rintro rfl; rw [hid] at hk; cases hk
  have h5 := F.same ⟨k, 3⟩ (by
    simp only [List.mem_cons, List.not_mem_nil, or_false, not_or] at hS ⊢
    exact ⟨hS.1, hS.2.1, hS.2.2.1, hS.2.2.2, h4⟩)
  rw [tet4_at hk, tet4_at h2] at h5
  simp only [Option.some.injEq, Prod.mk.injEq] at h5
  funext i
  rcases fin4 i with rfl | rfl | rfl | rfl
  · exact h5.1
  · exact h5.2.1
  · exact h5.2.2.1
  · exact h5.2.2.2

/-- The flips of `nine_ok` and of the examples for C20 and C22 are instances; for example: -/
example : ∃ m m' ws, eight = some m ∧ m.tets.WF ∧ m.toAdj ⟨0, 0⟩ = some ⟨1, 7⟩ ∧
    m.flip23Unchecked ⟨0, 0⟩ = some (m', ws) ∧ KeepsTets m m' [0, 1] [] ∧ SameVertices m m' := by
  obtain ⟨m, h1, h2⟩ := eight_ok
  have h3 := of_map (f := fun m => (m.flip23Unchecked ⟨0, 0⟩).isSome) (b := true) h1 (by decide +kernel)
  obtain ⟨⟨m', ws⟩, h4⟩ := Option.isSome_iff_exists.1 h3
  have h5 := of_map (f := fun m => m.toAdj ⟨0, 0⟩) (b := some ⟨1, 7⟩) h1 (by decide +kernel)
  exact ⟨m, m', ws, h1, h2.stored.2.2, h5, h4, C23_flip23 h2.stored.2.2 h5 h4,
    C23_vertices (v := 0) h2.stored.2.2 (.inr (.inl h4))⟩

/-! ## Any flips -/

theorem step_consistent {m m' : Mesh P V T} (hm : Consistent m) (h : FlipStep m m') : Consistent m' := by
  obtain ⟨_, _, _, F, -⟩ := h.facts hm.toT
  exact F.cons.toSpec

theorem steps_consistent {m m' : Mesh P V T} (hm : Consistent m) (h : FlipSteps m m') : Consistent m' := by
  induction h with
  | refl => exact hm
  | step _ h ih => exact step_consistent ih h

/-- `nine` arises from `six` by two flips. -/
theorem steps_example : ∃ m m', six = some m ∧ Consistent m ∧ nine = some m' ∧ FlipSteps m m' := by
  obtain ⟨m, h1, h2⟩ := six_ok
  obtain ⟨m', h3, h4⟩ := eight_ok
  obtain ⟨m'', h5, h6⟩ := nine_ok
  refine ⟨m, m'', h1, h2, h5, .step (.step (.refl m) (m'' := m') ?_) ?_⟩
  · have h3' := h3
    rw [eight, h1, Option.bind_some, Option.map_eq_some_iff] at h3'
    obtain ⟨⟨m1, ws⟩, h7, rfl⟩ := h3'
    refine .flip14 (k := 0) (v := 4) (nT := 5) (nE := 10) (ws := ws) ?_ ?_ ?_ ?_ ?_ (by decide) (by decide) h7
    · show (m.tets.get 0).isSome = true
      exact of_map (f := fun m => (m.tets.get 0).isSome) (b := true) h1 (by decide +kernel)
    · intro h
      have := of_map (f := fun m => (m.vertices.get 4).isSome) (b := true) h1 (by decide +kernel)
      simp [h] at this
    · rintro ⟨w, hw⟩
      exact first_of_check (of_map (f := fun m => noVertex m 4) h1 (by decide +kernel)) w hw
    · exact of_map (f := fun m => m.numTets) (b := some 5) h1 (by decide +kernel)
    · exact of_map (f := fun m => m.numEdges) (b := some 10) h1 (by decide +kernel)
  · have h5' := h5
    rw [nine, h3, Option.bind_some, Option.map_eq_some_iff] at h5'
    obtain ⟨⟨m1, ws⟩, h7, rfl⟩ := h5'
    exact .flip23 (w := ⟨0, 0⟩) (o := ⟨1, 7⟩) (d := 4) (e := GHOST) (nT := 8) (nE := 14) (ws := ws)
      (of_map (f := fun m => m.toAdj ⟨0, 0⟩) h3 (by decide +kernel))
      (of_map (f := fun m => m.fourth ⟨0, 0⟩) h3 (by decide +kernel))
      (of_map (f := fun m => m.fourth ⟨1, 7⟩) h3 (by decide +kernel)) (by decide)
      (edge_of_check (of_map (f := fun m => noEdge m 4 GHOST) h3 (by decide +kernel)))
      (of_map (f := fun m => m.numTets) h3 (by decide +kernel))
      (of_map (f := fun m => m.numEdges) h3 (by decide +kernel)) (by decide) (by decide) h7

/-! ## C24 -/

/-- A flip changes the numbers of tets and edges by the same amount as the numbers of used
vertices and triangles require; the number of triangles is always twice the number of tets. -/
theorem C24_counts {m m' : Mesh P V T} (hm : Consistent m) (h : FlipStep m m') {nT nE : Nat}
    (hT : m.numTets = some nT) (hE : m.numEdges = some nE) :
    ∃ nT' nE', m'.numTets = some nT' ∧ m'.numEdges = some nE' ∧
      triangles m = 2 * nT ∧ triangles m' = 2 * nT' ∧
      m'.numVertices = m.numVertices ∧
      ((usedVertices m' = usedVertices m + 1 ∧ nT' = nT + 3 ∧ nE' = nE + 4) ∨
       (usedVertices m' = usedVertices m ∧ (nT' = nT + 1 ∧ nE' = nE + 1 ∨ nT' + 1 = nT ∧ nE' + 1 = nE ∨
          nT' = nT ∧ nE' = nE))) := by
  have hc := hm.toT
  obtain ⟨old, new, ids, F, hh⟩ := h.facts hc
  have sT := numTets_eq hc hT
  have sE := numEdges_eq hc hE
  refine ⟨m'.tets.size, m'.edges.size, numTets_of F.cons rfl, numEdges_of F.cons rfl, by rw [hc.triangles, sT],
    F.cons.triangles, ?_, ?_⟩
  · rw [Mesh.numVertices, Mesh.numVertices, hc.stored.1.len_eq, F.cons.stored.1.len_eq]
    congr 1
    obtain ⟨L, hL⟩ := F.rest
    rw [hL]
    exact setTets_size _ _
  · subst sT sE
    rcases hh with ⟨v, h1, h2, h3, h4⟩ | ⟨h1, h2⟩
    · refine .inl ⟨?_, h3, h4⟩
      have : {u | InMesh m' u} = insert v {u | InMesh m u} := by
        ext u
        simp only [Set.mem_setOf_eq, Set.mem_insert_iff, h2]
        tauto
      rw [usedVertices, this, Set.ncard_insert_of_notMem (by exact h1) hc.finite_vertices, usedVertices]
    · refine .inr ⟨?_, h2⟩
      have : {u | InMesh m' u} = {u | InMesh m u} := by
        ext u
        exact h1 u
      rw [usedVertices, this, usedVertices]

/-- `V - E + F - T`, where `V` counts the vertices in tets, is the same before and after any
finite sequence of flips. -/
theorem C24_euler {m m' : Mesh P V T} (hm : Consistent m) (h : FlipSteps m m') {nT nE nT' nE' : Nat}
    (hT : m.numTets = some nT) (hE : m.numEdges = some nE) (hT' : m'.numTets = some nT')
    (hE' : m'.numEdges = some nE') :
    (usedVertices m' : Int) - nE' + triangles m' - nT' = usedVertices m - nE + triangles m - nT := by
  induction h generalizing nT' nE' with
  | refl =>
    rw [hT] at hT'
    rw [hE] at hE'
    cases hT'
    cases hE'
    rfl
  | @step m' m'' h1 h2 ih =>
    have hm' := steps_consistent hm h1
    have a1 := numTets_of hm'.toT rfl
    have a2 := numEdges_of hm'.toT rfl
    rw [← ih a1 a2]
    obtain ⟨n, n', b1, b2, b3, b4, -, b5⟩ := C24_counts hm' h2 a1 a2
    rw [hT'] at b1
    rw [hE'] at b2
    cases b1
    cases b2
    rw [b3, b4]
    push_cast
    omega

theorem new_vertices {a b c d u : VId} {p : V4} (hp : p ∈ [(a, b, c, d), (b, c, d, GHOST), (a, d, c, GHOST),
    (d, a, b, GHOST), (c, b, a, GHOST)]) (hu : u ∈ list4 p) : u ∈ [a, b, c, d, GHOST] := by
  simp only [List.mem_cons, List.not_mem_nil, or_false] at hp
  rcases hp with rfl | rfl | rfl | rfl | rfl <;>
    simp only [list4, List.mem_cons, List.not_mem_nil, or_false] at hu <;>
    rcases hu with h | h | h | h <;> simp [h]

/-- For meshes made from four points by flips it is 0. -/
theorem C24_euler_new (orient : P → P → P → P → Bool) (centroid : P × P × P × P → P) (nan : P)
    (v0 v1 v2 v3 : P × V) (dt : T) {m m' : Mesh P V T} {nT nE : Nat}
    (hnew : Mesh.new orient centroid nan v0 v1 v2 v3 dt = some m) (h : FlipSteps m m')
    (hT : m'.numTets = some nT) (hE : m'.numEdges = some nE) :
    (usedVertices m' : Int) - nE + triangles m' - nT = 0 := by
  obtain ⟨m1, h1, h2, -, h4, h5, -, a, b, c, d, h6, h7, -, h8⟩ := C14_new orient centroid nan v0 v1 v2 v3 dt
  rw [hnew] at h1
  cases h1
  rw [C24_euler h2 h h5 h4 hT hE, h2.toT.triangles, numTets_eq h2.toT h5]
  have : {u | InMesh m u} = ↑({0, 1, 2, 3, GHOST} : Finset VId) := by
    ext u
    rw [Set.mem_setOf_eq, inMesh_iff]
    simp only [Finset.coe_insert, Finset.coe_singleton, Set.mem_insert_iff, Set.mem_singleton_iff]
    have key : (∃ q, HasTet m q ∧ u ∈ list4 q) ↔ u ∈ [a, b, c, d, GHOST] := by
      constructor
      · rintro ⟨q, hq, hu⟩
        obtain ⟨p, hp, hs⟩ := (h8 q).1 hq
        exact new_vertices hp ((SameTet.mem hs u).2 hu)
      · intro hu
        simp only [List.mem_cons, List.not_mem_nil, or_false] at hu
        have p1 : HasTet m (a, b, c, d) := (h8 _).2 ⟨_, List.mem_cons_self, EvenRearr.refl _⟩
        have p2 : HasTet m (b, c, d, GHOST) :=
          (h8 _).2 ⟨_, List.mem_cons_of_mem _ List.mem_cons_self, EvenRearr.refl _⟩
        rcases hu with rfl | rfl | rfl | rfl | rfl
        · exact ⟨_, p1, by simp [list4]⟩
        · exact ⟨_, p1, by simp [list4]⟩
        · exact ⟨_, p1, by simp [list4]⟩
        · exact ⟨_, p1, by simp [list4]⟩
        · exact ⟨_, p2, by simp [list4]⟩
    rw [key]
    clear key h8 h7
    split_ifs at h6
    · obtain ⟨rfl, rfl, rfl, rfl⟩ : a = 0 ∧ b = 1 ∧ c = 2 ∧ d = 3 := by simpa using h6
      simp only [List.mem_cons, List.not_mem_nil, or_false]
    · obtain ⟨rfl, rfl, rfl, rfl⟩ : a = 0 ∧ b = 1 ∧ c = 3 ∧ d = 2 := by simpa using h6
      simp only [List.mem_cons, List.not_mem_nil, or_false]
      exact or_congr_right (or_congr_right or_left_comm)
  rw [usedVertices, this, Set.ncard_coe_finset]
  decide

/-! ## C28, continued -/

/-- The tracked index stays exact under any flips: it stays tracked, and `C28_index_exact`
applies to the result. -/
theorem C28_flips {m m' : Mesh P V T} (hm : Consistent m) (ht : m.trackTriMap = true) (h : FlipSteps m m')
    (s : V3) : m'.trackTriMap = true ∧
      (∀ w, m'.triMap s = some w → ∃ s', m'.tri w = some s' ∧ triKey s' = s) ∧
      (m'.triMap s = none ↔ ∀ s', triKey s' = s → ¬ HasTri m' s') := by
  have key : m'.trackTriMap = true := by
    induction h with
    | refl => exact ht
    | step h1 h2 ih =>
      obtain ⟨_, _, _, F, -⟩ := h2.facts (steps_consistent hm h1).toT
      obtain ⟨L, hL⟩ := F.rest
      rw [hL]
      exact ih
  exact ⟨key, C28_index_exact (steps_consistent hm h) key s⟩

/-! ## C26 -/

/-- After any flip the two sides of each triangle agree on the lock, triangles and edges that
exist before and after keep their lock, and the new ones are not locked. -/
theorem C26_locks {m m' : Mesh P V T} (hm : Consistent m) (h : FlipStep m m') :
    (∀ w w', m'.toAdj w = some w' → m'.triLocked w' = m'.triLocked w) ∧
    (∀ s, HasTri m s → HasTri m' s → (LockedTri m' s ↔ LockedTri m s)) ∧
    (∀ s, HasTri m' s → ¬ HasTri m s → ¬ LockedTri m' s) ∧
    (∀ a b, HasEdge m a b → HasEdge m' a b → (LockedEdge m' a b ↔ LockedEdge m a b)) ∧
    (∀ a b, HasEdge m' a b → ¬ HasEdge m a b → ¬ LockedEdge m' a b) := by
  obtain ⟨old, new, ids, F, -⟩ := h.facts hm.toT
  refine ⟨F.cons.toSpec.locks, fun s _ h2 => F.locks.tri s h2, ?_, fun a b _ h2 => F.locks.edge a b h2, ?_⟩
  · rintro s h1 h2 h3
    obtain ⟨w, h4, -⟩ := (F.locks.tri s h1).1 h3
    exact h2 ⟨w, h4⟩
  · rintro a b h1 h2 h3
    obtain ⟨e, ue, h4, h5, -⟩ := (F.locks.edge a b h1).1 h3
    exact h2 ⟨e, ue, h4, h5⟩

/-! ## C25 -/

/-- The guarded 2-to-3 flip of whatever mesh: on a locked triangle it returns `None` and leaves
the mesh as it is, otherwise it is the flip. -/
theorem C25_flip23 (m : Mesh P V T) (w : Walker) :
    (m.triLocked w = some true → m.flip23Unlocked w = some (m, none)) ∧
    (m.triLocked w = some false →
      m.flip23Unlocked w = (m.flip23Unchecked w).map fun r => (r.1, some r.2)) := by
  constructor
  · intro h
    exact (bind_step h _).trans rfl
  · intro h
    refine (bind_step h _).trans ?_
    cases m.flip23Unchecked w <;> rfl

/-- A locked triangle is refused, the same triangle is flipped when not locked. -/
example : ((eight.bind fun m => (m.modTet 0 (·.setLocked 0)).bind fun m => m.flip23Unlocked ⟨0, 0⟩).map
      (·.2) = some none) ∧
    ((eight.bind fun m => m.flip23Unlocked ⟨0, 0⟩).map (·.2) = some (some [⟨0, 2⟩, ⟨1, 2⟩, ⟨8, 2⟩])) := by
  decide +kernel

/-- The guarded flips of whatever mesh: whenever it returns `None`, the mesh is as before. -/
theorem C25_none_unchanged {m m' : Mesh P V T} {w : Walker} :
    (m.flip23Unlocked w = some (m', none) → m' = m) ∧ (m.flip32Unlocked w = some (m', none) → m' = m) := by
  constructor
  · intro h
    obtain ⟨l, -, h⟩ := Option.bind_eq_some_iff.1 h
    split_ifs at h
    · simp only [Option.pure_def, Option.some.injEq, Prod.mk.injEq, and_true] at h
      exact h.symm
    · obtain ⟨r, -, h⟩ := Option.bind_eq_some_iff.1 h
      simp at h
  · intro h
    obtain ⟨o1, -, h⟩ := Option.bind_eq_some_iff.1 h
    obtain ⟨o2, -, h⟩ := Option.bind_eq_some_iff.1 h
    obtain ⟨l, -, h⟩ := Option.bind_eq_some_iff.1 h
    have done : ∀ {m m' : Mesh P V T}, (some (m, none) : Option (Mesh P V T × Option (List Walker))) =
        some (m', none) → m' = m := by
      intro m m' h
      simp only [Option.some.injEq, Prod.mk.injEq, and_true] at h
      exact h.symm
    split_ifs at h
    · exact done h
    obtain ⟨l, -, h⟩ := Option.bind_eq_some_iff.1 h
    split_ifs at h
    · exact done h
    obtain ⟨l, -, h⟩ := Option.bind_eq_some_iff.1 h
    split_ifs at h
    · exact done h
    obtain ⟨e, -, h⟩ := Option.bind_eq_some_iff.1 h
    obtain ⟨ue, -, h⟩ := Option.bind_eq_some_iff.1 h
    split_ifs at h
    · exact done h
    obtain ⟨o3, -, h⟩ := Option.bind_eq_some_iff.1 h
    split_ifs at h
    · exact done h
    obtain ⟨r, -, h⟩ := Option.bind_eq_some_iff.1 h
    simp at h

/-- Around the current edge there are exactly three tets. -/
def RingOfThree (m : Mesh P V T) (w : Walker) : Prop :=
  ∃ o1 o2, m.ringStep w = some o1 ∧ m.ringStep o1 = some o2 ∧ m.ringStep o2 = some w

/-- The guarded 3-to-2 flip of a consistent mesh refuses iff the edge is locked, or a triangle
at the edge is locked, or there are not exactly three tets around the edge; otherwise it is
the flip. -/
theorem C25_flip32 {m : Mesh P V T} (hm : Consistent m) {w : Walker} {a b : VId} (hw : m.edge w = some (a, b)) :
    ((LockedEdge m a b ∨ (∃ w', SameRing m w w' ∧ m.triLocked w' = some true) ∨ ¬ RingOfThree m w) →
      m.flip32Unlocked w = some (m, none)) ∧
    (¬ LockedEdge m a b → (∀ w', SameRing m w w' → m.triLocked w' = some false) → RingOfThree m w →
      m.flip32Unlocked w = (m.flip32Unchecked w).map fun r => (r.1, some r.2)) := by
  have hc := hm.toT
  obtain ⟨t, ht, hab⟩ := Option.map_eq_some_iff.1 hw
  have step : ∀ w : Walker, (∃ t, m.tets.get w.tet = some t) → ∃ o, m.ringStep w = some o ∧
      ∃ t, m.tets.get o.tet = some t := by
    rintro w ⟨t, ht⟩
    obtain ⟨u, hu, -⟩ := hc.adj _ _ w.twin.edge ht
    exact ⟨t.adj w.twin.edge, by simp only [Mesh.ringStep, Mesh.toAdj, Walker.twin, ht, Option.map_some], u, hu⟩
  obtain ⟨o1, s1, l1⟩ := step w ⟨t, ht⟩
  obtain ⟨o2, s2, l2⟩ := step o1 l1
  obtain ⟨o3, s3, l3⟩ := step o2 l2
  have lock : ∀ w : Walker, (∃ t, m.tets.get w.tet = some t) → ∃ l, m.triLocked w = some l := by
    rintro w ⟨t, ht⟩
    exact ⟨_, by simp [Mesh.triLocked, ht]; rfl⟩
  obtain ⟨k0, e0⟩ := lock w ⟨t, ht⟩
  obtain ⟨k1, e1⟩ := lock o1 l1
  obtain ⟨k2, e2⟩ := lock o2 l2
  obtain ⟨e, ue, e3, e4, e5⟩ := hm.edgePtr w a b hw
  have hlock : LockedEdge m a b ↔ ue.locked = true := by
    constructor
    · rintro ⟨e', ue', g1, g2, g3⟩
      obtain rfl := hm.edgeUnique _ _ _ _ g1 e4 (g2.trans e5.symm)
      rw [e4] at g1
      cases g1
      exact g3
    · intro h
      exact ⟨e, ue, e4, e5, h⟩
  have r1 : SameRing m w o1 := .step (.refl w) s1
  have r2 : SameRing m w o2 := .step r1 s2
  have eval : m.flip32Unlocked w = if k0 then some (m, none) else if k1 then some (m, none) else
      if k2 then some (m, none) else if ue.locked then some (m, none) else
      if o3 ≠ w then some (m, none) else (m.flip32Unchecked w).map fun r => (r.1, some r.2) := by
    unfold Mesh.flip32Unlocked
    refine (bind_step s1 _).trans ?_
    refine (bind_step s2 _).trans ?_
    refine (bind_step e0 _).trans ?_
    cases k0
    swap
    · rfl
    simp only [Bool.false_eq_true, if_false]
    refine (bind_step e1 _).trans ?_
    cases k1
    swap
    · rfl
    simp only [Bool.false_eq_true, if_false]
    refine (bind_step e2 _).trans ?_
    cases k2
    swap
    · rfl
    simp only [Bool.false_eq_true, if_false]
    refine (bind_step e3 _).trans ?_
    refine (bind_step e4 _).trans ?_
    cases ue.locked
    swap
    · rfl
    simp only [Bool.false_eq_true, if_false]
    refine (bind_step s3 _).trans ?_
    by_cases h : o3 = w
    · simp only [h, ne_eq, not_true_eq_false, if_false]
      cases m.flip32Unchecked w <;> rfl
    · simp only [h, ne_eq, not_false_eq_true, if_true]
      rfl
  rw [eval]
  constructor
  · intro h
    by_cases c0 : k0 = true
    · rw [if_pos c0]
    rw [if_neg c0]
    by_cases c1 : k1 = true
    · rw [if_pos c1]
    rw [if_neg c1]
    by_cases c2 : k2 = true
    · rw [if_pos c2]
    rw [if_neg c2]
    by_cases c3 : ue.locked = true
    · rw [if_pos c3]
    rw [if_neg c3]
    by_cases c4 : o3 = w
    swap
    · rw [if_pos c4]
    subst c4
    exfalso
    rcases h with h | ⟨w', h1, h2⟩ | h
    · exact c3 (hlock.1 h)
    · have back : ∀ {a b}, m.ringStep a = some b → ∀ {c}, m.ringStep c = some b → c = a := by
        intro a b hb c hc'
        obtain ⟨ta, ha, -⟩ := Option.map_eq_some_iff.1 hb
        obtain ⟨tc, hcc, -⟩ := Option.map_eq_some_iff.1 hc'
        obtain ⟨x, _, _, _, g1, g2, -⟩ := hm.adjacent a.twin (Option.isSome_iff_exists.2 ⟨ta, ha⟩)
        obtain ⟨y, _, _, _, g3, g4, -⟩ := hm.adjacent c.twin (Option.isSome_iff_exists.2 ⟨tc, hcc⟩)
        rw [Mesh.ringStep, g1] at hb
        cases hb
        rw [Mesh.ringStep, g3] at hc'
        cases hc'
        rw [g2] at g4
        have h5 : a.twin = c.twin := Option.some.inj g4
        have inv : ∀ x : Code, twin (twin x) = x := by decide
        obtain ⟨h6, h7⟩ := Walker.mk.inj h5
        have h8 : a.edge = c.edge := by rw [← inv a.edge, h7, inv]
        cases a; cases c
        simp only at h6 h8
        rw [h6, h8]
      have three : w' = o3 ∨ w' = o1 ∨ w' = o2 := by
        clear h2
        induction h1 with
        | refl => exact .inl rfl
        | @step x y _ hs ih =>
          change m.ringStep x = some y at hs
          rcases ih with rfl | rfl | rfl
          · rw [s1] at hs; cases hs; exact .inr (.inl rfl)
          · rw [s2] at hs; cases hs; exact .inr (.inr rfl)
          · rw [s3] at hs; cases hs; exact .inl rfl
        | @back x y _ hs ih =>
          change m.ringStep y = some x at hs
          rcases ih with rfl | rfl | rfl
          · exact .inr (.inr (back s3 hs))
          · exact .inl (back s1 hs)
          · exact .inr (.inl (back s2 hs))
      rcases three with rfl | rfl | rfl
      · rw [e0] at h2; exact c0 (Option.some.inj h2)
      · rw [e1] at h2; exact c1 (Option.some.inj h2)
      · rw [e2] at h2; exact c2 (Option.some.inj h2)
    · exact h ⟨o1, o2, s1, s2, s3⟩
  · rintro h1 h2 ⟨p1, p2, g1, g2, g3⟩
    rw [s1] at g1; cases g1
    rw [s2] at g2; cases g2
    rw [s3] at g3
    have g3 : o3 = w := Option.some.inj g3
    have c0 := h2 w (.refl _)
    have c1 := h2 o1 r1
    have c2 := h2 o2 r2
    rw [e0] at c0; cases c0
    rw [e1] at c1; cases c1
    rw [e2] at c2; cases c2
    rw [hlock] at h1
    simp [h1, g3]

/-- The edge between vertex 4 and the ghost vertex of `nine` is flipped; an edge with four tets
is refused. -/
example : ((nine.bind fun m => m.flip32Unlocked ⟨0, 0⟩).map (·.2) = some (some [⟨0, 10⟩, ⟨8, 10⟩])) ∧
    ((eight.bind fun m => m.flip32Unlocked ⟨6, 3⟩).map (·.2) = some none) := by
  decide +kernel

/-- The guards are not enough to keep the mesh consistent.  On the mesh made from four points,
`flip23_unlocked` adds a second edge between vertex 0 and the ghost vertex ... -/
theorem C25_guard23_insufficient : ∃ m m' ws, five = some m ∧ Consistent m ∧
    m.flip23Unlocked ⟨0, 0⟩ = some (m', some ws) ∧ ¬ Consistent m' := by
  obtain ⟨m, h1, h2⟩ := five_ok
  have h3 : ((five.bind fun m => m.flip23Unlocked ⟨0, 0⟩).map fun r =>
      (r.2, (r.1.edges.get 6).map (·.vertices), (r.1.edges.get 10).map (·.vertices))) =
      some (some [⟨0, 2⟩, ⟨1, 2⟩, ⟨5, 2⟩], some (0, GHOST), some (0, GHOST)) := by decide +kernel
  rw [h1, Option.bind_some] at h3
  obtain ⟨⟨m', r⟩, h4, h5⟩ := Option.map_eq_some_iff.1 h3
  simp only [Prod.mk.injEq] at h5
  obtain ⟨rfl, h6, h7⟩ := h5
  obtain ⟨e6, g6, k6⟩ := Option.map_eq_some_iff.1 h6
  obtain ⟨e10, g10, k10⟩ := Option.map_eq_some_iff.1 h7
  exact ⟨m, m', _, h1, h2, h4, fun hc =>
    absurd (hc.edgeUnique 6 10 _ _ g6 g10 (k6.trans k10.symm)) (by decide)⟩

/-- ... and `flip32_unlocked` adds a second copy of a triangle. -/
theorem C25_guard32_insufficient : ∃ m m' ws, five = some m ∧ Consistent m ∧
    m.flip32Unlocked ⟨0, 3⟩ = some (m', some ws) ∧ ¬ Consistent m' := by
  obtain ⟨m, h1, h2⟩ := five_ok
  have h3 : ((five.bind fun m => m.flip32Unlocked ⟨0, 3⟩).map fun r => (r.2,
      decide (r.1.tri ⟨0, 3⟩ = some (3, 2, GHOST)), decide (r.1.tri ⟨1, 4⟩ = some (3, 2, GHOST)))) =
      some (some [⟨0, 10⟩, ⟨3, 10⟩], true, true) := by decide +kernel
  rw [h1, Option.bind_some] at h3
  obtain ⟨⟨m', r⟩, h4, h5⟩ := Option.map_eq_some_iff.1 h3
  simp only [Prod.mk.injEq] at h5
  obtain ⟨rfl, h6, h7⟩ := h5
  refine ⟨m, m', _, h1, h2, h4, fun hc => ?_⟩
  have := hc.triUnique _ _ _ _ (of_decide_eq_true h6) (of_decide_eq_true h7) (.inl rfl)
  revert this
  decide

/-! ## C27 -/

/-- Of whatever mesh: if the quality-driven 2-to-3 flip returns walkers, the triangle was not
locked, the flip was performed, and the smallest quality of the replaced tets was below the
smallest quality of the replacing tets; if it returns `None`, the mesh is as before. -/
theorem C27_flip23 {K : Type} [LinearOrder K] (quality : Mesh P V T → V4 → K) {m m' : Mesh P V T}
    {w o : Walker} {a b c d e : VId} {r : Option (List Walker)}
    (hw : m.tet4 w = some (a, b, c, d)) (ho : m.toAdj w = some o) (hf : m.fourth o = some e)
    (h : m.flip23Quality quality w = some (m', r)) :
    (r = none → m' = m) ∧
    (∀ ws, r = some ws → m.triLocked w = some false ∧ m.flip23Unchecked w = some (m', ws) ∧
      (∃ p ∈ [(a, b, c, d), (b, a, c, e)], ∀ q ∈ [(b, a, d, e), (a, c, d, e), (c, b, d, e)],
        quality m p < quality m q)) := by
  obtain ⟨o', h1, h⟩ := Option.bind_eq_some_iff.1 h
  obtain ⟨q', h2, h⟩ := Option.bind_eq_some_iff.1 h
  rw [hw] at h2
  cases h2
  obtain ⟨e', h3, h⟩ := Option.bind_eq_some_iff.1 h
  have he : e' = e := by
    obtain ⟨t, ht, rfl⟩ := Option.map_eq_some_iff.1 h1
    rw [Mesh.toAdj, ht, Option.map_some, Option.some.injEq] at ho
    have : m.fourth o = m.fourth (t.opp (face w.edge)) := by
      rw [← ho]
      have fn : ∀ e, face (nfe e) = face e := by decide
      have fp : ∀ e, face (pfe e) = face e := by decide
      simp only [Tet.adj, Tet.turn]
      split
      · rfl
      · simp only [Mesh.fourth, Walker.pfe, Tet.fourth, fp]
      · simp only [Mesh.fourth, Walker.nfe, Tet.fourth, fn]
    rw [this, h3] at hf
    exact Option.some.inj hf
  subst he
  simp only at h
  split_ifs at h with hq
  · constructor
    · rintro rfl
      exact C25_none_unchanged.1 h
    · rintro ws rfl
      obtain ⟨l, h4, h⟩ := Option.bind_eq_some_iff.1 h
      split_ifs at h with hl
      · simp at h
      · obtain ⟨⟨m1, ws1⟩, h5, h⟩ := Option.bind_eq_some_iff.1 h
        simp only [Option.pure_def, Option.some.injEq, Prod.mk.injEq] at h
        obtain ⟨rfl, rfl⟩ := h
        refine ⟨by rw [h4]; simpa using hl, h5, ?_⟩
        simp only [lt_min_iff] at hq
        rcases le_total (quality m (a, b, c, d)) (quality m (b, a, c, e')) with hle | hle
        · rw [min_eq_left hle] at hq
          refine ⟨_, List.mem_cons_self, ?_⟩
          simp only [List.mem_cons, List.not_mem_nil, or_false]
          rintro q (rfl | rfl | rfl)
          · exact hq.1.1
          · exact hq.1.2
          · exact hq.2
        · rw [min_eq_right hle] at hq
          refine ⟨_, List.mem_cons_of_mem _ List.mem_cons_self, ?_⟩
          simp only [List.mem_cons, List.not_mem_nil, or_false]
          rintro q (rfl | rfl | rfl)
          · exact hq.1.1
          · exact hq.1.2
          · exact hq.2
  · simp only [Option.pure_def, Option.some.injEq, Prod.mk.injEq] at h
    obtain ⟨rfl, rfl⟩ := h
    exact ⟨fun _ => rfl, by rintro ws h; cases h⟩

/-- The same for the 3-to-2 flip; here the guard also makes sure that there are three tets
around the edge and that the edge is not locked. -/
theorem C27_flip32 {K : Type} [LinearOrder K] (quality : Mesh P V T → V4 → K) {m m' : Mesh P V T}
    {w o1 : Walker} {x y c d e : VId} {r : Option (List Walker)}
    (hw : m.tet4 w = some (x, y, c, d)) (ho : m.ringStep w = some o1) (hf : m.fourth o1 = some e)
    (h : m.flip32Quality quality w = some (m', r)) :
    (r = none → m' = m) ∧
    (∀ ws, r = some ws → RingOfThree m w ∧ m.triLocked w = some false ∧
      (∃ i ue, m.undirEdge w = some i ∧ m.edges.get i = some ue ∧ ue.locked = false) ∧
      m.flip32Unchecked w = some (m', ws) ∧
      (∃ p ∈ [(x, y, c, d), (x, y, d, e), (x, y, e, c)], ∀ q ∈ [(d, c, e, x), (c, d, e, y)],
        quality m p < quality m q)) := by
  obtain ⟨o', h1, h⟩ := Option.bind_eq_some_iff.1 h
  rw [ho] at h1
  cases h1
  obtain ⟨q', h2, h⟩ := Option.bind_eq_some_iff.1 h
  rw [hw] at h2
  cases h2
  obtain ⟨e', h3, h⟩ := Option.bind_eq_some_iff.1 h
  rw [hf] at h3
  cases h3
  simp only at h
  split_ifs at h with hq
  · constructor
    · rintro rfl
      exact C25_none_unchanged.2 h
    · rintro ws rfl
      obtain ⟨o', s1, h⟩ := Option.bind_eq_some_iff.1 h
      rw [ho] at s1
      cases s1
      obtain ⟨o2, s2, h⟩ := Option.bind_eq_some_iff.1 h
      obtain ⟨l, l0, h⟩ := Option.bind_eq_some_iff.1 h
      split_ifs at h with c0
      · simp at h
      obtain ⟨l, -, h⟩ := Option.bind_eq_some_iff.1 h
      split_ifs at h
      · simp at h
      obtain ⟨l, -, h⟩ := Option.bind_eq_some_iff.1 h
      split_ifs at h
      · simp at h
      obtain ⟨i, g1, h⟩ := Option.bind_eq_some_iff.1 h
      obtain ⟨ue, g2, h⟩ := Option.bind_eq_some_iff.1 h
      split_ifs at h with c1
      · simp at h
      obtain ⟨o3, s3, h⟩ := Option.bind_eq_some_iff.1 h
      split_ifs at h with c2
      · simp at h
      obtain ⟨⟨m1, ws1⟩, h5, h⟩ := Option.bind_eq_some_iff.1 h
      simp only [Option.pure_def, Option.some.injEq, Prod.mk.injEq] at h
      obtain ⟨rfl, rfl⟩ := h
      have c2' : o3 = w := by simpa using c2
      subst c2'
      refine ⟨⟨o1, o2, ho, s2, s3⟩, by rw [l0]; simpa using c0, ⟨i, ue, g1, g2, by simpa using c1⟩, h5, ?_⟩
      have hex : ∃ p ∈ [(x, y, c, d), (x, y, d, e), (x, y, e, c)], quality m p =
          min (min (quality m (x, y, c, d)) (quality m (x, y, d, e))) (quality m (x, y, e, c)) := by
        rcases min_choice (min (quality m (x, y, c, d)) (quality m (x, y, d, e))) (quality m (x, y, e, c)) with
          h6 | h6 <;> rw [h6]
        · rcases min_choice (quality m (x, y, c, d)) (quality m (x, y, d, e)) with h7 | h7 <;> rw [h7]
          · exact ⟨_, by simp, rfl⟩
          · exact ⟨(x, y, d, e), by simp, rfl⟩
        · exact ⟨(x, y, e, c), by simp, rfl⟩
      obtain ⟨p, hp, hpe⟩ := hex
      refine ⟨p, hp, ?_⟩
      rw [hpe]
      have h8 := lt_min_iff.1 hq
      simp only [List.mem_cons, List.not_mem_nil, or_false]
      rintro q (rfl | rfl)
      · exact h8.1
      · exact h8.2
  · simp only [Option.pure_def, Option.some.injEq, Prod.mk.injEq] at h
    obtain ⟨rfl, rfl⟩ := h
    exact ⟨fun _ => rfl, by rintro ws h; cases h⟩

/-- Preferring tets that have both vertex 4 and the ghost vertex, the 2-to-3 flip of `eight` is
performed, the 3-to-2 flip of `nine` is not; with the opposite preference it is. -/
example :
    let good : Mesh Nat Nat Unit → V4 → Nat := fun _ q => if 4 ∈ list4 q ∧ GHOST ∈ list4 q then 1 else 0
    let bad : Mesh Nat Nat Unit → V4 → Nat := fun m q => 1 - good m q
    ((eight.bind fun m => m.flip23Quality good ⟨0, 0⟩).map (·.2) = some (some [⟨0, 2⟩, ⟨1, 2⟩, ⟨8, 2⟩])) ∧
    ((nine.bind fun m => m.flip32Quality good ⟨0, 0⟩).map (·.2) = some none) ∧
    ((nine.bind fun m => m.flip32Quality bad ⟨0, 0⟩).map (·.2) = some (some [⟨0, 10⟩, ⟨8, 10⟩])) := by
  decide +kernel

end Tet
