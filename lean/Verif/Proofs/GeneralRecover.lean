import Verif.Proofs.General
import Verif.Props.Tiling

/-!
# Recovering edges in general position
-/

namespace Tet
open Spec
variable {K V T : Type} [Field K] [LinearOrder K] [IsStrictOrderedRing K]
variable {m m' : Mesh (Pt K) V T} {v0 v1 : VId}

theorem sameVertices_orient (h : SameVertices m m') : m'.orient = m.orient := by
  funext a b c d
  unfold Mesh.orient
  rw [sameVertices_idxOri h]

theorem sameVertices_tri (h : SameVertices m m') : m'.triIntersectsEdge = m.triIntersectsEdge := by
  funext a b c d e
  unfold Mesh.triIntersectsEdge Mesh.triEdgeBary
  rw [sameVertices_orient h]

theorem Spec.NoFlat.same (hf : NoFlat m) (h : SameVertices m m') : NoFlat m' := by
  intro a b c d hn
  rw [sameVertices_orient h]
  exact hf a b c d hn

/-- What stays the same on the way. -/
structure Good (m : Mesh (Pt K) V T) : Prop where
  cons : Consistent m
  tiles : Tiles m
  noFlat : NoFlat m

theorem Good.run (h : Good m) (hr : RecoverRun Mesh.positive m m') : Good m' ∧ SameVertices m m' ∧ ∀ v, Solid m' v ↔ Solid m v := by
  obtain ⟨k1, k2, -, k4⟩ := run_keeps hr h.cons.toT (C46_orient m) (h.tiles.oriented h.cons.toT)
  refine ⟨⟨k1.toSpec, C74_run h.cons h.tiles hr, h.noFlat.same k2⟩, k2, fun v => ?_⟩
  rw [Solid, Solid, k4]

/-- Flips for an edge add no triangle that crosses it. -/
theorem crossing_before {sim : VId → VId → VId → VId → Bool} {steps : Nat} (hm : Good m) {e : VId × VId} (h0 : Solid m e.1)
    (h1 : Solid m e.2) (hr : ProgressRun ((Mesh.exactTests sim steps).forEdge e) m m') {t : V3}
    (hc : CrossedBy m' e.1 e.2 (.tri t)) : CrossedBy m e.1 e.2 (.tri t) := by
  induction hr with
  | refl => exact hc
  | @step m m1 m2 hs hr ih =>
    have hs' := hs
    obtain ⟨old, new, k1, k2, -, k3⟩ := hs'
    have hrun : RecoverRun Mesh.positive m m1 := .flip k1 k2 (.refl _)
    obtain ⟨g1, g2, g3⟩ := hm.run hrun
    have hc1 := ih g1 ((g3 _).2 h0) ((g3 _).2 h1) hc
    obtain ⟨a, b, c⟩ := t
    have hx : m.triIntersectsEdge a b c e.1 e.2 = some true := by rw [← sameVertices_tri g2]; exact hc1.2
    refine ⟨?_, hx⟩
    rcases k3 a b c hc1.1 with k | ⟨a', b', c', p, q⟩
    · exact k
    exfalso
    have hsix : (a', b', c') ∈ six3 (a, b, c) := sameThree_six3.1 p.symm
    have hx' : m.triIntersectsEdge a' b' c' e.1 e.2 = some true := by rw [cross_six3 m e.1 e.2 hsix]; exact hx
    have htri := hasTri_six3 g1.cons.toT hc1.1 hsix
    have hcr' : CrossedBy m1 e.1 e.2 (.tri (a', b', c')) := ⟨htri, by rw [sameVertices_tri g2]; exact hx'⟩
    have hD := (crossed_hits g1.cons ((g3 _).2 h0) ((g3 _).2 h1) hcr').2.2
    have hrev : CrossedBy m1 e.2 e.1 (.tri (a', b', c')) := ⟨htri, by
      rw [(C37_order m1 a' b' c' e.1 e.2).2.2]; exact hcr'.2⟩
    have hD' := (crossed_hits g1.cons ((g3 _).2 h1) ((g3 _).2 h0) hrev).2.2
    have no : ∀ {v}, D (homv m1) (a', b', c', v) ≠ 0 → v ∉ [a', b', c'] := by
      intro v hv hmem
      simp only [List.mem_cons, List.not_mem_nil, or_false] at hmem
      rcases hmem with rfl | rfl | rfl
      · exact hv (Vec4.self0 ..)
      · exact hv (Vec4.self1 ..)
      · exact hv (Vec4.self2 ..)
    simp only [RecoverTests.forEdge, Mesh.exactTests, hx', Option.getD_some, Bool.not_true, Bool.or_false, Bool.or_eq_true,
      decide_eq_true_eq] at q
    exact q.elim (no hD) (no hD')

theorem no_panic {sim : VId → VId → VId → VId → Bool} {steps : Nat} (hm : Good m) {e : VId × VId} (h0 : Solid m e.1)
    (h1 : Solid m e.2) (hv : e.1 ≠ e.2) {n : Nat} (hn : m.numTets = some n) (hsteps : 12 * n ≤ steps) :
    ¬ EdgePanics (Mesh.exactTests sim steps) m e := by
  obtain ⟨l, hl, hw, -⟩ := search_all hm.cons hm.tiles hm.noFlat h0 h1 hv hn hsteps
  have uniq : ∀ {r}, Settles ((Mesh.exactTests sim steps : RecoverTests (Pt K) V T).edgeInters · m e) r → r = some (l.map .tri) := by
    rintro r ⟨N, hN⟩
    obtain ⟨N', hN'⟩ := hl
    exact (hN (max N N') (le_max_left _ _)).symm.trans (hN' (max N N') (le_max_right _ _))
  rintro (h | ⟨l', e', h, h2, -⟩ | ⟨l', m1, h, h2, h3, h4⟩)
  · exact absurd (uniq h) (by simp)
  · have := Option.some.inj (uniq h)
    rw [this] at h2
    simp at h2
  · have := Option.some.inj (uniq h)
    subst this
    obtain ⟨g1, g2, g3⟩ := hm.run (recoverRun_of h3)
    rcases h4 with h4 | h4
    · exact h4 h0
    have hg := g1.noFlat.generic g1.cons g1.tiles
    have s0 := (g3 e.1).2 h0
    have s1 := (g3 e.2).2 h1
    have hno := h4 (g1.tiles.star g1.cons e.1)
    rw [g1.cons.toT.hasEdge_tet] at hno
    obtain ⟨a, b, c, t, k1, k2⟩ := hg.first (solid_wt s0) (solid_wt s1) hv (inMesh_last s0.1) (inMesh_last s1.1)
      fun x y hxy => hno ⟨x, y, hxy⟩
    have hc := hits_crossed g1.cons s0 s1 (hasTri_iff.2 ⟨_, k1⟩) k2 (hg.fan.pos _ k1).ne'
    obtain ⟨t', k3, k4⟩ := hw.all _ (crossing_before hm h0 h1 h3 hc)
    obtain ⟨m2, j1, j2, j3⟩ := h2 (.tri t') (List.mem_map_of_mem k3)
    obtain ⟨f1, f2, f3⟩ := hm.run (recoverRun_of j1)
    have := crossing_before f1 ((f3 _).2 h0) ((f3 _).2 h1) j2 hc
    exact j3 (hasTri_six3 f1.cons.toT this.1 (sameThree_six3.1 k4))

end Tet
