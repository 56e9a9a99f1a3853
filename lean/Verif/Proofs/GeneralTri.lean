import Verif.Proofs.FanTri
import Verif.Proofs.GeneralRecover

/-!
# Recovering triangles in general position
-/

namespace Tet
open Spec
variable {K V T : Type} [Field K] [LinearOrder K] [IsStrictOrderedRing K]
variable {m m' : Mesh (Pt K) V T} {t : V3}

/-- A triangle of solid vertices whose edges are in the mesh. -/
structure Outlined (m : Mesh (Pt K) V T) (t : V3) : Prop where
  a : Solid m t.1
  b : Solid m t.2.1
  c : Solid m t.2.2
  edges : ∀ e ∈ triEdges t, HasEdge m e.1 e.2

theorem crosses_iff (hm : Consistent m) (ho : Outlined m t) {e : VId × VId} : CrossesTri m t e ↔
    (∃ x y, HasTet m (e.1, e.2, x, y)) ∧ Pierces (homv m) t.1 t.2.1 t.2.2 e.1 e.2 := by
  unfold CrossesTri
  rw [hm.toT.hasEdge_tet]
  refine and_congr_right fun ⟨x, y, hxy⟩ => ?_
  exact triIntersects_iff (solid_placed hm ho.a) (solid_placed hm ho.b) (solid_placed hm ho.c)
    (placed_tet hm hxy (by simp [list4])) (placed_tet hm hxy (by simp [list4]))

theorem crosses_swap {e : VId × VId} (h : CrossesTri m t e) : CrossesTri m t e.swap :=
  ⟨hasEdge_comm.1 h.1, by
    have := (C37_order m t.1 t.2.1 t.2.2 e.1 e.2).2.2
    exact this.trans h.2⟩

theorem sorted2_eq {e f : VId × VId} : sorted2 e = sorted2 f ↔ e = f ∨ e = f.swap := by
  obtain ⟨a, b⟩ := e
  obtain ⟨c, d⟩ := f
  constructor
  · intro hs
    rcases sorted2_cases a b with ⟨k1, -⟩ | ⟨k1, -⟩ <;> rcases sorted2_cases c d with ⟨k2, -⟩ | ⟨k2, -⟩ <;> rw [k1, k2] at hs <;>
      cases hs <;> simp
  · rintro (h | h) <;> cases h
    · rfl
    · exact sorted2_swap ..

/-- No edge goes through a triangle of the mesh. -/
theorem Good.no_cross (hm : Good m) (ho : Outlined m t) (ht : HasTri m t) (e : VId × VId) : ¬ CrossesTri m t e := by
  intro hc
  obtain ⟨⟨x, y, hxy⟩, ⟨s, hs⟩, -⟩ := (crosses_iff hm.cons ho).1 hc
  obtain ⟨a, b, c⟩ := t
  obtain ⟨d, hd⟩ := hasTri_iff.1 ht
  refine (hm.noFlat.generic hm.cons hm.tiles).edge_no_tri hxy hd ?_ hs
  obtain ⟨-, -, k1, k2, k3, p1, p2, p3, hx⟩ := hs
  rw [hx]
  simp only [map_add, map_smul, smul_eq_mul]
  have := mul_pos p1 (solid_wt ho.a)
  have := mul_pos p2 (solid_wt ho.b)
  have := mul_pos p3 (solid_wt ho.c)
  linarith

theorem Good.frame (hm : Good m) (ho : Outlined m t) (ht : ¬ HasTri m t) :
    Frame (homv m) last4 (HasTet m) t.1 t.2.1 t.2.2 where
  wa := solid_wt ho.a
  wb := solid_wt ho.b
  wc := solid_wt ho.c
  ab := hm.cons.toT.hasEdge_tet.1 (ho.edges (t.1, t.2.1) (by simp [triEdges]))
  bc := hm.cons.toT.hasEdge_tet.1 (ho.edges (t.2.1, t.2.2) (by simp [triEdges]))
  ca := hm.cons.toT.hasEdge_tet.1 (ho.edges (t.2.2, t.1) (by simp [triEdges]))
  no d hd := ht (hasTri_iff.2 ⟨d, hd⟩)

/-- The search finds all edges that go through the triangle. -/
theorem search_tri (hm : Good m) (ho : Outlined m t) :
    ∃ l, Settles (fun fuel => (m.triIntersections fuel t).map (·.map (·.edge))) (some l) ∧ ThroughTri m t l ∧
      (l = [] ↔ HasTri m t) := by
  obtain ⟨r, hr, hi⟩ := triIntersections_does hm.cons t
  have h12 := ho.edges (t.1, t.2.1) (by simp [triEdges])
  cases r with
  | none =>
    rcases hi with h1 | h1 | h1
    · exact absurd ho.a h1
    · exact absurd (solid_placed hm.cons ho.c) h1
    · exact absurd h12 (h1 (hm.tiles.star hm.cons _))
  | some l =>
    obtain ⟨h1, h2, h3, -, h5, h6⟩ := hi
    have once : l.Pairwise fun e f => f ≠ e ∧ f ≠ e.swap := by
      have := List.pairwise_map.1 h2
      refine this.imp fun {e f} hef => ⟨?_, ?_⟩ <;> intro h
      · exact hef (sorted2_eq.2 (.inl h.symm))
      · exact hef (sorted2_eq.2 (.inr (by rw [h, Prod.swap_swap])))
    by_cases ht : HasTri m t
    · obtain rfl : l = [] := by
        cases l with
        | nil => rfl
        | cons e l => exact absurd (h1 e List.mem_cons_self) (hm.no_cross ho ht e)
      exact ⟨[], hr, ⟨h1, fun e he => absurd he (hm.no_cross ho ht e), once⟩, by simp [ht]⟩
    · have hg := hm.noFlat.generic hm.cons hm.tiles
      have hf := hm.frame ho ht
      obtain ⟨r, s, k1, k2⟩ := hf.first hg
      have hrs : SameTet (t.1, t.2.1, r, s) (r, s, t.1, t.2.1) := mem_twelve.1 (by simp [twelve])
      have hne : l ≠ [] := fun hl => h6 hl r s k1 ((crosses_iff hm.cons ho).2 ⟨⟨_, _, hg.fan.closed _ _ k1 hrs⟩, k2⟩)
      refine ⟨l, hr, ⟨h1, fun e he => ?_, once⟩, by simp [ht, hne]⟩
      obtain ⟨e0, l', rfl⟩ : ∃ e0 l', l = e0 :: l' := by
        cases l with
        | nil => exact absurd rfl hne
        | cons e0 l' => exact ⟨e0, l', rfl⟩
      obtain ⟨⟨x0, y0, hxy0⟩, p0⟩ := (crosses_iff hm.cons ho).1 (h1 e0 List.mem_cons_self)
      obtain ⟨⟨x1, y1, hxy1⟩, p1⟩ := (crosses_iff hm.cons ho).1 he
      obtain ⟨ids, hids, hgl, hsh, -⟩ := hm.cons.glued
      have key : sorted2 (e.1, e.2) ∈ (e0 :: l').map sorted2 := by
        rw [← hsh] at hg hf hxy0 hxy1
        refine hf.all hgl hg (L := fun u v => sorted2 (u, v) ∈ (e0 :: l').map sorted2) ?_ ?_ hxy0 p0 (by simp) hxy1 p1
        · intro u v hu
          rwa [sorted2_swap]
        · intro x y z w hS hxy hp
          obtain ⟨d, hd⟩ : ∃ d, HasTet m (x, y, z, d) := by
            rw [← hsh]
            rcases hS with hS | hS
            · exact ⟨w, hS⟩
            · exact hg.adj _ _ _ _ hS
          obtain ⟨e', j1, j2⟩ := List.mem_map.1 hxy
          refine h5 e' j1 (y, z) ⟨x, y, z, hasTri_iff.2 ⟨d, hd⟩, sorted2_eq.1 j2, .inl rfl⟩ ?_
          exact (crosses_iff hm.cons ho).2 ⟨⟨x, d, HasTet.same hd (mem_twelve.1 (by simp [twelve]))⟩, hp⟩
      obtain ⟨e', j1, j2⟩ := List.mem_map.1 key
      rcases sorted2_eq.1 j2 with j3 | j3
      · exact .inl (by rw [← show e' = e from j3]; exact j1)
      · exact .inr (by rw [← show e' = e.swap from j3]; exact j1)

/-! ## Flips for a triangle -/

theorem orientSim_of {sim : VId → VId → VId → VId → Bool} (hsim : IsSim m.idxOri sim) {a b c d : VId} {x : K}
    (hx : m.orient a b c d = some x) (h0 : x ≠ 0) : Mesh.orientSim sim a b c d = decide (0 < x) := by
  unfold Mesh.orient at hx
  obtain ⟨p0, h1, hx⟩ := Option.bind_eq_some_iff.1 hx
  obtain ⟨p1, h2, hx⟩ := Option.bind_eq_some_iff.1 hx
  obtain ⟨p2, h3, hx⟩ := Option.bind_eq_some_iff.1 hx
  obtain ⟨p3, h4, hx⟩ := Option.bind_eq_some_iff.1 hx
  have hx : Mesh.ghostSign [a, b, c, d] * orient3d p0 p1 p2 p3 = x := Option.some.inj hx
  have hne : orient3d p0 p1 p2 p3 ≠ 0 := fun h => h0 (by rw [← hx, h, mul_zero])
  rw [Mesh.orientSim, hsim.sign _ _ _ _ _ _ _ _ h1 h2 h3 h4 hne, ← hx, Mesh.ghostSign]
  by_cases hg : GHOST ∈ [a, b, c, d]
  · rw [if_pos hg]
    rw [decide_eq_true hg, neg_one_mul]
    rcases lt_trichotomy (orient3d p0 p1 p2 p3) 0 with h | h | h
    · rw [decide_eq_false h.not_gt, decide_eq_true (neg_pos.2 h)]; rfl
    · exact absurd h hne
    · rw [decide_eq_true h, decide_eq_false (by simpa using h.le)]; rfl
  · rw [if_neg hg, decide_eq_false hg, one_mul]
    simp

theorem sim_cross {sim : VId → VId → VId → VId → Bool} (hsim : IsSim m.idxOri sim) {a b c u v : VId}
    (h : m.triIntersectsEdge a b c u v = some true) : Mesh.triIntersectsEdgeSim sim a b c u v = true := by
  unfold Mesh.triIntersectsEdge at h
  obtain ⟨l, h1, h2⟩ := Option.map_eq_some_iff.1 h
  unfold Mesh.triEdgeBary at h1
  obtain ⟨x0, k0, h1⟩ := Option.bind_eq_some_iff.1 h1
  obtain ⟨x1, k1, h1⟩ := Option.bind_eq_some_iff.1 h1
  obtain ⟨x2, k2, h1⟩ := Option.bind_eq_some_iff.1 h1
  obtain ⟨x3, k3, h1⟩ := Option.bind_eq_some_iff.1 h1
  obtain ⟨x4, k4, h1⟩ := Option.bind_eq_some_iff.1 h1
  obtain rfl := Option.some.inj h1
  simp only [Mesh.sameSign, List.all_cons, List.all_nil, Bool.and_true, Bool.or_eq_true, Bool.and_eq_true, decide_eq_true_eq] at h2
  rcases h2 with ⟨s0, s1, s2, s3, s4⟩ | ⟨s0, s1, s2, s3, s4⟩
  · simp only [Mesh.triIntersectsEdgeSim, orientSim_of hsim k0 s0.ne', orientSim_of hsim k1 s1.ne', orientSim_of hsim k2 s2.ne',
      orientSim_of hsim k3 s3.ne', orientSim_of hsim k4 s4.ne', s0, s1, s2, s3, s4]
    rfl
  · simp only [Mesh.triIntersectsEdgeSim, orientSim_of hsim k0 s0.ne, orientSim_of hsim k1 s1.ne, orientSim_of hsim k2 s2.ne,
      orientSim_of hsim k3 s3.ne, orientSim_of hsim k4 s4.ne, s0.not_gt, s1.not_gt, s2.not_gt, s3.not_gt, s4.not_gt]
    rfl

theorem isSim_same {sim : VId → VId → VId → VId → Bool} (hsim : IsSim m.idxOri sim) (h : SameVertices m m') : IsSim m'.idxOri sim := by
  rw [sameVertices_idxOri h]
  exact hsim

/-- Flips for a triangle add no edge that goes through it. -/
theorem edge_before {sim : VId → VId → VId → VId → Bool} {steps : Nat} (hm : Good m) (hsim : IsSim m.idxOri sim)
    (hr : ProgressRun ((Mesh.exactTests sim steps).forTri t) m m') {e : VId × VId} (ha : Solid m t.1) (hb : Solid m t.2.1)
    (hc' : Solid m t.2.2) (hc : CrossesTri m' t e) : CrossesTri m t e := by
  induction hr with
  | refl => exact hc
  | @step m m1 m2 hs hr ih =>
    obtain ⟨old, new, k1, k2, k3, -⟩ := hs
    have hrun : RecoverRun Mesh.positive m m1 := .flip k1 k2 (.refl _)
    obtain ⟨g1, g2, g3⟩ := hm.run hrun
    have hc1 := ih g1 (isSim_same hsim g2) ((g3 _).2 ha) ((g3 _).2 hb) ((g3 _).2 hc') hc
    have hx : m.triIntersectsEdge t.1 t.2.1 t.2.2 e.1 e.2 = some true := by rw [← sameVertices_tri g2]; exact hc1.2
    refine ⟨?_, hx⟩
    obtain ⟨x, y, hxy⟩ := g1.cons.toT.hasEdge_tet.1 hc1.1
    have hp : Pierces (homv m1) t.1 t.2.1 t.2.2 e.1 e.2 :=
      (triIntersects_iff (solid_placed g1.cons ((g3 _).2 ha)) (solid_placed g1.cons ((g3 _).2 hb)) (solid_placed g1.cons ((g3 _).2 hc'))
        (placed_tet g1.cons hxy (by simp [list4])) (placed_tet g1.cons hxy (by simp [list4]))).1 hc1.2
    have no : ∀ {v}, D (homv m1) (t.1, t.2.1, t.2.2, v) ≠ 0 → v ∉ [t.1, t.2.1, t.2.2] := by
      intro v hv hmem
      simp only [List.mem_cons, List.not_mem_nil, or_false] at hmem
      rcases hmem with rfl | rfl | rfl
      · exact hv (Vec4.self0 ..)
      · exact hv (Vec4.self1 ..)
      · exact hv (Vec4.self2 ..)
    have n1 := no hp.2
    have n2 := no hp.swap.2
    have hx' : m.triIntersectsEdge t.1 t.2.1 t.2.2 e.2 e.1 = some true := by
      rw [(C37_order m t.1 t.2.1 t.2.2 e.1 e.2).2.2]; exact hx
    rcases k3 e.1 e.2 hc1.1 with k | k | k
    · exact k
    · simp [RecoverTests.forTri, Mesh.exactTests, sim_cross hsim hx] at k
      simp at n1 n2
      tauto
    · simp [RecoverTests.forTri, Mesh.exactTests, sim_cross hsim hx'] at k
      simp at n1 n2
      tauto

/-- The second part of `recover_and_lock_tri` panics only if an edge to the ghost vertex goes through the triangle. -/
theorem tri_panics {sim : VId → VId → VId → VId → Bool} {steps : Nat} (hm : Good m) (hsim : IsSim m.idxOri sim)
    (hready : RecoverReady Mesh.positive m) (ha : Solid m t.1) (hb : Solid m t.2.1) (hc : Solid m t.2.2)
    (hl : ∀ e ∈ triEdges t, LockedEdge m e.1 e.2) (hp : TriPanics (Mesh.exactTests sim steps) m t) : ∃ v, CrossesTri m t (GHOST, v) := by
  have has : ∀ {m : Mesh (Pt K) V T} {a b}, LockedEdge m a b → HasEdge m a b := fun ⟨i, ue, q1, q2, _⟩ => ⟨i, ue, q1, q2⟩
  have ho : Outlined m t := ⟨ha, hb, hc, fun e he => has (hl e he)⟩
  obtain ⟨l, hs, hw, -⟩ := search_tri hm ho
  have uniq : ∀ {r}, Settles ((Mesh.exactTests sim steps : RecoverTests (Pt K) V T).triInters · m t) r → r = some l := by
    rintro r ⟨N, hN⟩
    obtain ⟨N', hN'⟩ := hs
    exact (hN (max N N') (le_max_left _ _)).symm.trans (hN' (max N N') (le_max_right _ _))
  rcases hp with h | ⟨l', e, h, h2, h3⟩ | ⟨l', m1, h, h2, h3, h4⟩
  · exact absurd (uniq h) (by simp)
  · obtain rfl := Option.some.inj (uniq h)
    have hcr := hw.crossing e h2
    obtain ⟨⟨x, y, w, hxy⟩, -⟩ := (crosses_iff hm.cons ho).1 hcr
    have : e.1 = GHOST := by
      by_contra hne
      exact h3 ⟨⟨w, (tet4_parts hxy).1⟩, hne⟩
    exact ⟨e.2, by rw [← this]; exact hcr⟩
  · exfalso
    obtain rfl := Option.some.inj (uniq h)
    obtain ⟨g1, g2, g3⟩ := hm.run (recoverRun_of h3)
    have hrec : Recovered Mesh.positive m m1 [] [] := .of_progress (tests := (Mesh.exactTests sim steps).forTri t) hready h3 [] []
    have ho1 : Outlined m1 t := ⟨(g3 _).2 ha, (g3 _).2 hb, (g3 _).2 hc, fun e he => has (hrec.locks.edgeKept _ _ (hl e he))⟩
    obtain ⟨l1, -, hw1, hl1⟩ := search_tri g1 ho1
    obtain ⟨e, l2, rfl⟩ : ∃ e l2, l1 = e :: l2 := by
      cases l1 with
      | nil => exact absurd (hl1.1 rfl) h4
      | cons e l2 => exact ⟨e, l2, rfl⟩
    have hcr := hw1.crossing e List.mem_cons_self
    -- still in the way when it was gone
    have fin : ∀ e, CrossesTri m1 t e → e ∈ l' → False := by
      intro e hcr he
      obtain ⟨m2, j1, j2, j3⟩ := h2 e he
      obtain ⟨f1, f2, f3⟩ := hm.run (recoverRun_of j1)
      exact j3 (f1.tiles.star f1.cons _) (edge_before f1 (isSim_same hsim f2) j2 ((f3 _).2 ha) ((f3 _).2 hb) ((f3 _).2 hc) hcr).1
    rcases hw.all e (edge_before hm hsim h3 ha hb hc hcr) with j | j
    · exact fin e hcr j
    · exact fin e.swap (crosses_swap hcr) j

end Tet
