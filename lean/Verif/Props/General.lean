import Verif.Proofs.GeneralRecover
import Verif.Props.TilingQuality

/-!
# C76, C77: edges in a mesh that fills space, in general position
-/

namespace Tet
open Spec
variable {K V T : Type} [Field K] [LinearOrder K] [IsStrictOrderedRing K]

/-! ## C76 -/

/-- C76: in a mesh that fills space and whose vertices are in general position, `edge_intersections_raw` lists exactly
the triangles that the edge crosses, each of them once and in the order in which the edge meets them.  The list is empty
iff the edge is in the mesh. -/
theorem C76_search {m : Mesh (Pt K) V T} (hm : Consistent m) (ht : Tiles m) (hf : NoFlat m) {v0 v1 : VId} (h0 : Solid m v0)
    (h1 : Solid m v1) (hv : v0 ≠ v1) {n steps : Nat} (hn : m.numTets = some n) (hsteps : 12 * n ≤ steps) :
    ∃ l : List V3, Settles (fun fuel => (m.edgeIntersections fuel steps v0 v1).map (·.map fun x => x.2.other)) (some (l.map .tri)) ∧
      InTheWay m v0 v1 l ∧ (l = [] ↔ HasEdge m v0 v1) :=
  search_all hm ht hf h0 h1 hv hn hsteps

/-- C76: so two vertices are joined by an edge iff no triangle is in the way. -/
theorem C76_edge {m : Mesh (Pt K) V T} (hm : Consistent m) (ht : Tiles m) (hf : NoFlat m) {v0 v1 : VId} (h0 : Solid m v0)
    (h1 : Solid m v1) (hv : v0 ≠ v1) : HasEdge m v0 v1 ↔ ∀ g, ¬ CrossedBy m v0 v1 g := by
  obtain ⟨l, -, hw, hl⟩ := search_all hm ht hf h0 h1 hv (numTets_of hm.toT rfl) le_rfl
  rw [← hl]
  constructor
  · rintro rfl (e | t) hc
    · exact hw.noEdge e hc
    · obtain ⟨t', h, -⟩ := hw.all t hc
      simp at h
  · intro h
    cases l with
    | nil => rfl
    | cons t l => exact absurd (hw.crossed t List.mem_cons_self) (h _)

/-- C76: the tets at a vertex of a mesh that fills space are connected through triangles with that vertex, so the walks
around a vertex reach all of them. -/
theorem C76_star {m : Mesh (Pt K) V T} (hm : Consistent m) (ht : Tiles m) (v : VId) : StarConnected m v := ht.star hm v

/-! ## C77 -/

/-- C77: in such a mesh `recover_and_lock_edge` never panics.  It returns true iff the edge is in the mesh that it leaves,
and otherwise there is a triangle in the way, which was in the way before. -/
theorem C77_edge (sim : VId → VId → VId → VId → Bool) {steps : Nat} {m : Mesh (Pt K) V T} (hm : Consistent m) (ht : Tiles m)
    (hf : NoFlat m) (hmap : m.trackTriMap = true) (hroom : Spacious m) {e : VId × VId} (h0 : Solid m e.1) (h1 : Solid m e.2)
    (hv : e.1 ≠ e.2) {n : Nat} (hn : m.numTets = some n) (hsteps : 12 * n ≤ steps) (depth : Nat) :
    ∃ m' b, Settles (fun fuel => m.recoverAndLockEdge (Mesh.exactTests sim steps) fuel e depth) (some (m', b)) ∧
      Consistent m' ∧ SameVertices m m' ∧ Tiles m' ∧ (b = true ↔ HasEdge m' e.1 e.2) ∧ (b = true → LockedEdge m' e.1 e.2) ∧
      (b = false → ∃ t, CrossedBy m' e.1 e.2 (.tri t)) ∧ ∀ g, CrossedBy m' e.1 e.2 g → CrossedBy m e.1 e.2 g := by
  have hg : Good m := ⟨hm, ht, hf⟩
  obtain ⟨r, h2, h3, h4⟩ := C74_edge sim steps hm ht hmap hroom e depth
  obtain _ | ⟨m', _ | _⟩ := r
  · exact absurd h3 (no_panic hg h0 h1 hv hn hsteps)
  · obtain ⟨k1, -, k3, l, g, k4, k5, k6⟩ := h3
    obtain ⟨g1, g2, g3⟩ := hg.run k3.run
    have s0 := (g3 e.1).2 h0
    have s1 := (g3 e.2).2 h1
    obtain ⟨l', j1, j2, -⟩ := search_all hm ht hf h0 h1 hv hn hsteps
    obtain rfl : l = l'.map .tri := by
      obtain ⟨N, hN⟩ := k4
      obtain ⟨N', hN'⟩ := j1
      exact Option.some.inj ((hN (max N N') (le_max_left _ _)).symm.trans (hN' (max N N') (le_max_right _ _)))
    obtain ⟨t, j3, rfl⟩ := List.mem_map.1 k5
    have hc : CrossedBy m' e.1 e.2 (.tri t) := by
      refine ⟨k6, ?_⟩
      rw [sameVertices_tri g2]
      exact (j2.crossed t j3).2
    obtain ⟨i1, i2, i3⟩ := h4 _ _ rfl
    refine ⟨m', false, h2, i1, i2, i3, ?_, by simp, fun _ => ⟨t, hc⟩, ?_⟩
    · rw [C76_edge i1 i3 g1.noFlat s0 s1 hv]
      simp only [Bool.false_eq_true, false_iff, not_forall, not_not]
      exact ⟨_, hc⟩
    · rintro (e' | t') hc'
      · exact absurd hc' (no_edge_crossed i1 g1.noFlat hv e')
      · exact crossing_before hg h0 h1 k1 hc'
  · obtain ⟨l, m1, -, -, -, -, k3, k4⟩ := h3
    obtain ⟨g1, g2, g3⟩ := hg.run k3.run
    have s0 := (g3 e.1).2 h0
    have s1 := (g3 e.2).2 h1
    obtain ⟨i1, i2, i3⟩ := h4 _ _ rfl
    have hE : HasEdge m' e.1 e.2 := by
      obtain ⟨i, ue, q1, q2, -⟩ := k4
      exact ⟨i, ue, q1, q2⟩
    refine ⟨m', true, h2, i1, i2, i3, by simp [hE], fun _ => k4, by simp, fun g hc => ?_⟩
    exact absurd hc ((C76_edge i1 i3 g1.noFlat s0 s1 hv).1 hE g)

/-- C77: the same for `recover_and_lock_edges`: it does not panic, and every edge of the PLC is in the mesh and locked at
the end, or missing because a triangle was in its way at some time. -/
theorem C77_edges (sim : VId → VId → VId → VId → Bool) {steps : Nat} {m : Mesh (Pt K) V T} (hm : Consistent m) (ht : Tiles m)
    (hf : NoFlat m) (hmap : m.trackTriMap = true) (hroom : Spacious m) {order : List (VId × VId) → List (VId × VId)}
    (ho : ∀ l e, e ∈ order l ↔ e ∈ l) {plc : List (VId × VId)} (hp : ∀ e ∈ plc, Solid m e.1 ∧ Solid m e.2 ∧ e.1 ≠ e.2)
    (hsteps : 12 * idMax ≤ steps) :
    ∃ m' missing, Settles (fun fuel => m.recoverAndLockEdges (Mesh.exactTests sim steps) fuel order plc) (some (m', missing)) ∧
      Consistent m' ∧ SameVertices m m' ∧ Tiles m' ∧ (∀ e ∈ plc, sorted2 e ∈ missing ∨ LockedEdge m' e.1 e.2) ∧
      ∀ e ∈ missing, e ∈ plc.map sorted2 ∧ ∃ m2, RecoverRun Mesh.positive m m2 ∧ RecoverRun Mesh.positive m2 m' ∧
        ∃ t, CrossedBy m2 e.1 e.2 (.tri t) := by
  have hg : Good m := ⟨hm, ht, hf⟩
  have hp' : ∀ e ∈ plc.map sorted2, Solid m e.1 ∧ Solid m e.2 ∧ e.1 ≠ e.2 := by
    intro e he
    obtain ⟨⟨a, b⟩, h1, rfl⟩ := List.mem_map.1 he
    obtain ⟨h2, h3, h4⟩ := hp _ h1
    rcases sorted2_cases a b with ⟨k, -⟩ | ⟨k, -⟩ <;> rw [k]
    · exact ⟨h2, h3, h4⟩
    · exact ⟨h3, h2, h4.symm⟩
  have room : ∀ {m1 : Mesh (Pt K) V T}, RecoverReady Mesh.positive m1 → ∃ n, m1.numTets = some n ∧ 12 * n ≤ steps := by
    intro m1 hr
    have : Room m1 := by
      by_contra hc
      exact hr.never m1 (.refl _) (.inr hc)
    obtain ⟨nT, nE, k1, -, k2, -⟩ := this
    exact ⟨nT, k1, by omega⟩
  obtain ⟨r, h2, h3, h4⟩ := C74_edges sim steps hm ht hmap hroom ho plc
  obtain _ | ⟨m', missing⟩ := r
  · obtain ⟨m1, k1, e, k2, k3⟩ := h3
    obtain ⟨g1, g2, g3⟩ := hg.run k1.run
    obtain ⟨s0, s1, s2⟩ := hp' e k2
    obtain ⟨n, hn, hns⟩ := room k1.ready
    exact absurd k3 (no_panic g1 ((g3 _).2 s0) ((g3 _).2 s1) s2 hn hns)
  · obtain ⟨i1, i2, i3⟩ := h4 _ _ rfl
    obtain ⟨k1, k2, k3⟩ := h3
    refine ⟨m', missing, h2, i1, i2, i3, fun e he => ?_, fun e he => ?_⟩
    · refine (k3 _ (List.mem_map_of_mem he)).imp id fun hl => ?_
      obtain ⟨a, b⟩ := e
      rcases sorted2_cases a b with ⟨k, -⟩ | ⟨k, -⟩ <;> rw [k] at hl
      · exact hl
      · rw [LockedEdge, min_comm, max_comm] at hl
        exact hl
    · obtain ⟨j1, m1, m2, j2, j3, j4, l, g, j5, j6, j7⟩ := k2 e he
      obtain ⟨s0, s1, s2⟩ := hp' e j1
      obtain ⟨g1, g2, g3⟩ := hg.run j2.run
      obtain ⟨n, hn, hns⟩ := room j2.ready
      obtain ⟨l', q1, q2, -⟩ := search_all g1.cons g1.tiles g1.noFlat ((g3 _).2 s0) ((g3 _).2 s1) s2 hn hns
      obtain rfl : l = l'.map .tri := by
        obtain ⟨N, hN⟩ := j5
        obtain ⟨N', hN'⟩ := q1
        exact Option.some.inj ((hN (max N N') (le_max_left _ _)).symm.trans (hN' (max N N') (le_max_right _ _)))
      obtain ⟨t, q3, rfl⟩ := List.mem_map.1 j6
      refine ⟨j1, m2, j2.run.trans' j3.run, j4.run, t, j7, ?_⟩
      rw [sameVertices_tri j3.vertices]
      exact (q2.crossed t q3).2

/-! ## Examples -/

def noFlatCheck (m : Mesh (Pt ℚ) Nat Unit) : Bool :=
  let l := GHOST :: m.vertices.keys
  l.all fun a => l.all fun b => l.all fun c => l.all fun d =>
    decide (a = b ∨ a = c ∨ a = d ∨ b = c ∨ b = d ∨ c = d ∨ m.orient a b c d ≠ some 0)

theorem noFlat_of_check {m : Mesh (Pt ℚ) Nat Unit} (h : noFlatCheck m = true) : NoFlat m := by
  intro a b c d hn ho
  simp only [List.nodup_cons, List.mem_cons, List.not_mem_nil, or_false, not_or, List.nodup_nil, and_true, not_false_eq_true] at hn
  have hk : ∀ v p, m.idxOri v = some p → v ∈ GHOST :: m.vertices.keys := by
    intro v p hp
    unfold Mesh.idxOri Mesh.idx at hp
    by_cases hv : v = GHOST
    · rw [hv]
      exact List.mem_cons_self
    rw [if_neg hv] at hp
    obtain ⟨x, hx, -⟩ := Option.map_eq_some_iff.1 hp
    exact List.mem_cons_of_mem _ (IdMap.mem_keys.2 (by simp [hx]))
  have ho' := ho
  unfold Mesh.orient at ho'
  simp only [Option.bind_eq_bind, Option.bind_eq_some_iff] at ho'
  obtain ⟨pa, ia, pb, ib, pc, ic, pd, id, -⟩ := ho'
  have := of_decide_eq_true (List.all_eq_true.1 (List.all_eq_true.1 (List.all_eq_true.1 (List.all_eq_true.1 h a (hk a _ ia)) b
    (hk b _ ib)) c (hk c _ ic)) d (hk d _ id))
  obtain ⟨⟨h1, h2, h3⟩, ⟨h4, h5⟩, h6⟩ := hn
  rcases this with h | h | h | h | h | h | h
  · exact h1 h
  · exact h2 h
  · exact h3 h
  · exact h4 h
  · exact h5 h
  · exact h6 h
  · exact h ho

/-- All hypotheses of C76 and C77 in a mesh of two solid tets; the edge from 0 to 4 is not in the mesh, and the triangle
between the two tets is in its way. -/
theorem ratOff_general : ∃ m, ratOff = some m ∧ Consistent m ∧ Tiles m ∧ NoFlat m ∧ m.trackTriMap = true ∧ Spacious m ∧
    Solid m 0 ∧ Solid m 4 ∧ m.numTets = some 8 ∧
    ((m.edgeIntersections 40 96 0 4).map (·.map fun x => x.2.other)) = some [.tri (2, 3, 1)] := by
  obtain ⟨m, h1, h2, h3, h4, h5⟩ := ratOff_tiles
  have sol : ∀ v : VId, v ≠ GHOST → (ratOff.any fun m => (List.finRange 12).any fun c =>
      m.first ⟨0, c⟩ == some v || m.first ⟨7, c⟩ == some v) = true → Solid m v := by
    intro v hv h
    rw [h1] at h
    simp only [Option.any_some, List.any_eq_true, Bool.or_eq_true, beq_iff_eq] at h
    obtain ⟨c, -, h | h⟩ := h <;> exact ⟨⟨_, h⟩, hv⟩
  refine ⟨m, h1, h2, h3, noFlat_of_check (of_map (f := noFlatCheck) h1 (by decide +kernel)), h4, h5, sol 0 (by decide) (by decide +kernel),
    sol 4 (by decide) (by decide +kernel), of_map (f := fun m => m.numTets) (b := some 8) h1 (by decide +kernel), ?_⟩
  exact of_map (f := fun m => (m.edgeIntersections 40 96 0 4).map (·.map fun x => x.2.other))
      (b := some [.tri (2, 3, 1)]) h1 (by decide +kernel)

end Tet
