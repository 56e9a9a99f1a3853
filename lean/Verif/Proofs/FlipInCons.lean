import Verif.Proofs.FlipInMain

/-!
# Filling a cavity: vertices, edges and the triangle index
-/

namespace Tet
open Spec
variable {P V T : Type}

section
variable {m m' : Mesh P V T} {v : VId} {B : List Walker} {E : List TId} {A : TId × Fin 4 → TId}
  {mate : Walker → Walker} {η : VId → EId}

theorem FI.touched_iff (h : FI m v B E) (e : EId) : Touched m B e ↔ ∃ w, Outer m E w ∧ m.undirEdge w = some e := by
  constructor
  · rintro ⟨b, hb, t, ht, h1⟩
    rcases h1 with rfl | rfl | rfl
    · exact ⟨b, h.outer_mem hb, Mesh.undirEdge_eq ht⟩
    · exact ⟨b.nfe, (h.outer_mem hb).congr (fid_nfe b), Mesh.undirEdge_eq (w := b.nfe) ht⟩
    · exact ⟨b.pfe, (h.outer_mem hb).congr (fid_pfe b), Mesh.undirEdge_eq (w := b.pfe) ht⟩
  · rintro ⟨w, hw, he⟩
    obtain ⟨b, hb, hf⟩ := h.base hw
    obtain ⟨t, ht⟩ := h.get (h.outer_mem hb)
    refine ⟨b, hb, t, ht, ?_⟩
    rcases (sameTri_iff b w).2 hf with rfl | rfl | rfl
    · rw [Mesh.undirEdge_eq ht] at he; exact .inl (Option.some.inj he).symm
    · rw [Mesh.undirEdge_eq (w := b.nfe) ht] at he; exact .inr (.inl (Option.some.inj he).symm)
    · rw [Mesh.undirEdge_eq (w := b.pfe) ht] at he; exact .inr (.inr (Option.some.inj he).symm)

/-- An edge used by a tet inside and a tet outside is touched. -/
theorem FI.touched_of (h : FI m v B E) {k t i k' t' i'} (hk : k ∈ E) (ht : m.tets.get k = some t) (hk' : k' ∉ E)
    (ht' : m.tets.get k' = some t') (he : t.edges i = t'.edges i') : Touched m B (t.edges i) := by
  have hui : ∀ i, ∃ c, undirIdx c = i := by decide
  obtain ⟨c, rfl⟩ := hui i
  obtain ⟨c', rfl⟩ := hui i'
  have hm := h.cons
  obtain ⟨ue, h1, h2⟩ := hm.eptr _ t c ht
  obtain ⟨ue', h3, h4⟩ := hm.eptr _ t' c' ht'
  have h3' : m.edges.get (t'.edges (undirIdx c')) = some ue' := h3
  rw [← he] at h3'
  have h1' : m.edges.get (t.edges (undirIdx c)) = some ue := h1
  rw [h1'] at h3'
  cases h3'
  rw [h2] at h4
  have e1 : m.edge ⟨k, c⟩ = some (t.first c, t.second c) := by simp [Mesh.edge, ht, Tet.edge]
  have e2 : m.edge ⟨k', c'⟩ = some (t'.first c', t'.second c') := by simp [Mesh.edge, ht', Tet.edge]
  rw [h.touched_iff]
  have key : ∃ w, Outer m E w ∧ m.edge w = some (t.first c, t.second c) := by
    rcases (sorted2_pair_iff _ _ _ _).1 h4 with h5 | h5
    · exact h.surface_edge (x := ⟨k, c⟩) (y := ⟨k', c'⟩) hk hk' e1 (by rw [e2]; exact congrArg some h5.symm)
    · exact h.surface_edge (x := ⟨k, c⟩) (y := Walker.twin ⟨k', c'⟩) hk hk' e1
        (by rw [edge_twin' _ _ _ e2]; exact congrArg some h5.symm)
  obtain ⟨w, hw, hwe⟩ := key
  refine ⟨w, hw, ?_⟩
  obtain ⟨tw, htw⟩ := h.get hw
  obtain ⟨uw, h5, h6⟩ := hm.eptr _ tw w.edge htw
  rw [Mesh.undirEdge_eq htw]
  congr 1
  refine hm.eunique _ _ _ _ h5 h1 ?_
  simp only [Mesh.edge, htw, Option.map_some, Option.some.injEq] at hwe
  rw [h6, h2, hwe]; rfl

theorem undirIdx_twin' : ∀ c, undirIdx (twin c) = undirIdx c := by decide

theorem sorted2_swap' (a b : VId) : sorted2 (a, b) = sorted2 (b, a) := (sorted2_pair_iff _ _ _ _).2 (.inr rfl)

theorem FI.fan_outer {w x : Walker} (hw : Outer m E w) (hf : Fan m E w x) : Outer m E x := by
  cases hf with
  | refl => exact hw
  | step _ _ h _ => exact h

/-- The new tets at a new edge form one ring. -/
theorem FI.spoke_ring (h : FI m v B E) (hmate : IsMate m E mate) (hF : Flipped m v B E A mate η m') {w x : Walker}
    (hw : Outer m E w) (hf : Fan m E w x) : RingT m'.tets.get (sp A w) (sp A x) := by
  induction hf with
  | refl => exact .refl _
  | @step x y a b c h1 h2 h3 h4 ih =>
    have hx := FI.fan_outer hw h1
    obtain ⟨t, ht⟩ := h.get hx
    obtain ⟨t', a1, a2⟩ := h.nt hF hx ht
    have n := a2 x rfl
    have := RingT.step (t := t') ih a1
    rw [show (sp A x).edge = toPerm x.edge P0312 from rfl, n.sadj] at this
    have hp := hmate x.pfe (hx.congr (fid_pfe x))
    have e1 : m.edge x.pfe = some (c, a) := by
      have := t.tri_pfe x.edge
      simp only [Mesh.tri, ht, Option.map_some, Option.some.injEq, Tet.tri, Prod.mk.injEq] at h2
      simp only [Tet.tri, Prod.mk.injEq] at this
      have ht : m.tets.get x.pfe.tet = some t := ht
      rw [Mesh.edge, ht, Option.map_some]
      show some (t.first (_root_.Tet.pfe x.edge), t.second (_root_.Tet.pfe x.edge)) = _
      rw [this.1, this.2.1, h2.1, h2.2.2]
    have e2 := hp.2.1 _ _ e1
    rw [h.fill.edges _ _ hp.1 h3 (by rw [e2, h4])] at this
    exact this

theorem FI.meshSurgery (h : FI m v B E) (hmate : IsMate m E mate) (hF : Flipped m v B E A mate η m') :
    MeshSurgery m m' E (B.map fun b => A (fid b)) (Af A) := by
  have hm := h.cons
  have sur := h.surgery hmate hF
  have hadj := sur.adjT hm.adj
  have htr : m'.trackTriMap = m.trackTriMap := by rw [hF.eq]
  obtain ⟨L, hL1, hL2, hL3, hL4⟩ := hF.verts
  have firstN : ∀ q ∈ L, q.2.tet ∈ (B.map fun b => A (fid b)) ∧ ∃ t, m'.tets.get q.2.tet = some t ∧ t.first q.2.edge = q.1 := by
    intro q hq
    rcases hL2 q hq with ⟨w, hw, rfl⟩ | ⟨x, hx, h1, h2⟩
    · obtain ⟨t, ht⟩ := h.get hw
      obtain ⟨t', a1, a2⟩ := h.nt hF hw ht
      refine ⟨h.mem_new hw, t', a1, ?_⟩
      have k : ∀ c, firstIdx (toPerm c P3210) = face c := by decide
      show t'.vertices (firstIdx (toPerm w.edge P3210)) = v
      rw [k]
      exact (a2 w rfl).fourth
    · obtain ⟨t, ht⟩ := h.get hx
      obtain ⟨t', a1, a2⟩ := h.nt hF hx ht
      rw [h2]
      refine ⟨h.mem_new hx, t', a1, ?_⟩
      have := (a2 x rfl).tri
      simp only [Tet.tri, Prod.mk.injEq] at this
      simp only [Mesh.first, ht, Option.map_some, Option.some.injEq] at h1
      exact this.1.trans h1
  have newv : ∀ (x : Walker) t, m.tets.get x.tet = some t → t.first x.edge ≠ v ∧ t.second x.edge ≠ v ∧ t.third x.edge ≠ v :=
    fun x t ht => ⟨h.new_vertex ht _, h.new_vertex ht _, h.new_vertex ht _⟩
  have dist : ∀ k ∈ (B.map fun b => A (fid b)), ∀ t, m'.tets.get k = some t → Function.Injective t.vertices := by
    intro k hk t' ht'
    obtain ⟨w, t, hw, rfl, ht, n⟩ := h.newcase hF hk ht'
    rw [(n w rfl).vertices]
    intro i j hij
    by_cases hi : i = face w.edge <;> by_cases hj : j = face w.edge
    · rw [hi, hj]
    · subst hi
      rw [Function.update_self, Function.update_of_ne hj] at hij
      exact absurd hij.symm (h.new_vertex ht j)
    · subst hj
      rw [Function.update_self, Function.update_of_ne hi] at hij
      exact absurd hij (h.new_vertex ht i)
    · rw [Function.update_of_ne hi, Function.update_of_ne hj] at hij
      exact hm.distinct _ t ht hij
  -- edges of outer triangles survive
  have eouter : ∀ (x : Walker) t, Outer m E x → m.tets.get x.tet = some t →
      ∃ ue, m'.edges.get (t.undirEdge x.edge) = some ue ∧ ue.vertices = sorted2 (t.edge x.edge) := by
    intro x t hx ht
    obtain ⟨ue, h1, h2⟩ := hm.eptr _ t x.edge ht
    obtain ⟨bw, h3, -⟩ := hF.eold _ ue h1 (.inl ((h.touched_iff _).2 ⟨x, hx, Mesh.undirEdge_eq ht⟩))
    exact ⟨_, h3, h2⟩
  have memE : ∀ {x : Walker} {t : Tet T}, m.tets.get x.tet = some t → m.edge x = some (t.edge x.edge) := by
    intro x t ht
    simp [Mesh.edge, ht]
  have outer_unique : ∀ (x y : Walker) t u, Outer m E x → Outer m E y → m.tets.get x.tet = some t → m.tets.get y.tet = some u →
      u.edge y.edge = t.edge x.edge → y = x := by
    intro x y t u hx hy ht hu he
    exact h.fill.edges _ _ hy hx (by rw [memE ht, memE hu, he])
  have outer_mate : ∀ (x y : Walker) t u, Outer m E x → Outer m E y → m.tets.get x.tet = some t → m.tets.get y.tet = some u →
      u.edge y.edge = ((t.edge x.edge).2, (t.edge x.edge).1) → y = mate x := by
    intro x y t u hx hy ht hu he
    refine h.fill.edges _ _ hy (hmate x hx).1 ?_
    rw [memE hu, he, (hmate x hx).2.1 _ _ (memE ht)]; rfl
  refine
    { sur := sur, stored := hF.wf, distinct := dist, vref := ?_,
      vkeep := ?_, vnew := ?_, ekeep := ?_, enew := ?_, eunique := ?_, eused := ?_, tin := ?_,
      tout := ?_, rin := ?_, rnew := ?_, rold := ?_, lout := ?_, lin := ?_, track := htr, msound := ?_,
      mnew := ?_, mkeep := ?_ }
  · -- vref
    intro u x' hx'
    rw [hL1] at hx'
    rcases setTets_some hx' with ⟨h1, h2⟩ | ⟨w, x, h1, h2, h3⟩
    · right
      refine ⟨x', h2, rfl, ?_⟩
      intro k hk t i ht hv
      have : ∀ i : Fin 4, ∃ c, firstIdx c = i := by decide
      obtain ⟨c, hc⟩ := this i
      obtain ⟨w', hw', hw2⟩ := h.fill.surface ⟨k, c⟩ u hk (by simp [Mesh.first, ht, Tet.first, hc, hv])
      obtain ⟨p, hp, hp'⟩ := hL3 w' u hw' hw2
      exact h1 p hp hp'
    · left
      obtain ⟨h4, h5⟩ := firstN _ h1
      rw [h3]
      exact ⟨h4, h5⟩
  · intro u x hx
    rw [hL1]
    obtain ⟨w, hw⟩ := setTets_keep L hx
    exact ⟨_, hw⟩
  · -- vnew
    intro k hk t' i ht'
    obtain ⟨w, t, hw, rfl, ht, n⟩ := h.newcase hF hk ht'
    have hex : (t'.vertices i = GHOST ∨ ∃ x, m.vertices.get (t'.vertices i) = some x) ∧ ∃ p ∈ L, p.1 = t'.vertices i := by
      rw [(n w rfl).vertices]
      by_cases hi : i = face w.edge
      · rw [hi, Function.update_self]
        obtain ⟨x, hx, -⟩ := h.vert
        exact ⟨.inr ⟨x, hx⟩, hL4 ⟨w, hw⟩⟩
      · rw [Function.update_of_ne hi]
        refine ⟨?_, ?_⟩
        · rcases hm.vlive _ t i ht with h1 | ⟨x, -, h1, -⟩
          · exact .inl h1
          · exact .inr ⟨x, h1⟩
        · have : ∀ (c : Code) (i : Fin 4), i ≠ face c → ∃ c', (c' = c ∨ c' = _root_.Tet.nfe c ∨ c' = _root_.Tet.pfe c) ∧ firstIdx c' = i := by decide
          obtain ⟨c', hc', hi'⟩ := this _ _ hi
          refine hL3 ⟨w.tet, c'⟩ _ (hw.congr (fid_rot w hc')) ?_
          rw [Mesh.first, ht]
          exact congrArg (fun i => some (t.vertices i)) hi'
    obtain ⟨h1 | ⟨x, h1⟩, p, hp, hp'⟩ := hex
    · exact .inl h1
    · right
      obtain ⟨w0, hw0⟩ := setTets_keep L h1
      rcases setTets_some hw0 with ⟨h2, -⟩ | ⟨w, y, h2, h3, h4⟩
      · exact absurd hp' (h2 p hp)
      · obtain ⟨-, t', h6, h7⟩ := firstN _ h2
        refine ⟨_, t', by rw [hL1]; exact hw0, ?_, ?_⟩
        · rw [h4]; exact h6
        · rw [h4]; exact h7
  · -- ekeep
    intro k t i ue hk ht he
    have hc : Touched m B (t.edges i) ∨ ∀ k0 t0 j, k0 ∈ E → m.tets.get k0 = some t0 → t0.edges j ≠ t.edges i := by
      by_cases hx : ∃ k0 t0 j, k0 ∈ E ∧ m.tets.get k0 = some t0 ∧ t0.edges j = t.edges i
      · obtain ⟨k0, t0, j, h1, h2, h3⟩ := hx
        left
        rw [← h3]
        exact h.touched_of h1 h2 hk ht h3
      · right
        intro k0 t0 j h1 h2 h3
        exact hx ⟨k0, t0, j, h1, h2, h3⟩
    obtain ⟨bw, h1, -⟩ := hF.eold _ ue he hc
    exact ⟨_, h1, rfl⟩
  · -- enew
    intro k t' d hk ht'
    obtain ⟨x, t, hx, rfl, ht, n, hd⟩ := h.newcase4 hF hk ht' d
    obtain ⟨ue, h1, h2⟩ := eouter x t hx ht
    have h3 := hF.enew x _ hx (show m.first x = some (t.first x.edge) by simp [Mesh.first, ht])
    have tu : t'.undirEdge (twin d) = t'.undirEdge d := by simp [Tet.undirEdge, undirIdx_twin']
    rcases hd with rfl | rfl | rfl | rfl
    · exact ⟨ue, by rw [n.ed]; exact h1, by rw [n.edge]; exact h2⟩
    · refine ⟨ue, ?_, ?_⟩
      · rw [Tet.undirEdge, undirIdx_twin', ← Tet.undirEdge, n.ed]; exact h1
      · rw [Surgery.edge_twin, n.edge, sorted2_swap']; exact h2
    · exact ⟨_, by rw [n.sed]; exact h3, by rw [n.sedge]; rfl⟩
    · refine ⟨_, by rw [Tet.undirEdge, undirIdx_twin', ← Tet.undirEdge, n.sed]; exact h3, ?_⟩
      rw [Surgery.edge_twin, n.sedge, sorted2_swap']; rfl
  · -- eunique
    have old : ∀ e ue0 u, m.edges.get e = some ue0 → ue0.vertices ≠ sorted2 (u, v) := by
      intro e ue0 u h1 h2
      obtain ⟨k, t, i, h3, h4⟩ := hm.eused e ue0 h1
      obtain ⟨ue1, h5, h6⟩ := hm.eptr k t i h3
      rw [h4, h1] at h5
      cases h5
      rw [h2] at h6
      have h6 : sorted2 (u, v) = sorted2 (t.first i, t.second i) := h6
      obtain ⟨n1, n2, -⟩ := newv ⟨k, i⟩ t h3
      rcases (sorted2_pair_iff _ _ _ _).1 h6 with h7 | h7
      · exact n2 (congrArg Prod.snd h7).symm
      · exact n1 (congrArg Prod.snd h7).symm
    have vold : ∀ e ue ue0, m'.edges.get e = some ue → m.edges.get e = some ue0 →
        (Touched m B e ∨ ∀ k t i, k ∈ E → m.tets.get k = some t → t.edges i ≠ e) → ue.vertices = ue0.vertices := by
      intro e ue ue0 h1 h2 h3
      obtain ⟨bw, h4, -⟩ := hF.eold e ue0 h2 h3
      rw [h1] at h4
      cases h4
      rfl
    intro e e' ue ue' he he' hv
    rcases hF.eonly e ue he with ⟨u0, h1, h2⟩ | ⟨x, u, h1, h2, rfl⟩ <;>
      rcases hF.eonly e' ue' he' with ⟨u0', h1', h2'⟩ | ⟨x', u', h1', h2', rfl⟩
    · exact hm.eunique _ _ _ _ h1 h1' (by rw [← vold _ _ _ he h1 h2, ← vold _ _ _ he' h1' h2', hv])
    · exfalso
      have h3 := hF.enew x' u' h1' h2'
      rw [he'] at h3
      cases h3
      exact old _ _ u' h1 (by rw [← vold _ _ _ he h1 h2, hv]; rfl)
    · exfalso
      have h3 := hF.enew x u h1 h2
      rw [he] at h3
      cases h3
      exact old _ _ u h1' (by rw [← vold _ _ _ he' h1' h2', ← hv]; rfl)
    · have h3 := hF.enew x u h1 h2
      have h3' := hF.enew x' u' h1' h2'
      rw [he] at h3
      rw [he'] at h3'
      cases h3
      cases h3'
      have hv : sorted2 (u, v) = sorted2 (u', v) := hv
      rcases (sorted2_pair_iff _ _ _ _).1 hv with h7 | h7
      · rw [show u = u' from congrArg Prod.fst h7]
      · simp only [Prod.mk.injEq] at h7
        rw [h7.1, ← h7.2]
  · -- eused
    intro e ue he
    rcases hF.eonly e ue he with ⟨u0, h1, h2⟩ | ⟨x, u, h1, h2, rfl⟩
    · by_cases ht : Touched m B e
      · obtain ⟨w, hw, hwe⟩ := (h.touched_iff e).1 ht
        obtain ⟨t, ht⟩ := h.get hw
        obtain ⟨t', a1, a2⟩ := h.nt hF hw ht
        rw [Mesh.undirEdge_eq ht] at hwe
        exact ⟨_, t', w.edge, a1, by rw [(a2 w rfl).ed]; exact Option.some.inj hwe⟩
      · obtain ⟨k, t, i, h3, h4⟩ := hm.eused e u0 h1
        have hk : k ∉ E := fun hk => h2.resolve_left ht k t (undirIdx i) hk h3 h4
        exact ⟨k, _, i, hF.out k t hk h3, h4⟩
    · obtain ⟨t, ht⟩ := h.get h1
      obtain ⟨t', a1, a2⟩ := h.nt hF h1 ht
      refine ⟨_, t', toPerm x.edge P0312, a1, ?_⟩
      rw [(a2 x rfl).sed]
      simp only [Mesh.first, ht, Option.map_some, Option.some.injEq] at h2
      rw [h2]
  · -- tin
    intro k t1 d k' t2 d' hk hk' ht1 ht2 he
    obtain ⟨x, t, hx, rfl, ht, n, hd⟩ := h.newcase3 hF hk ht1 d
    obtain ⟨y, u, hy, rfl, hu, n', hd'⟩ := h.newcase3 hF hk' ht2 d'
    have side : u.second y.edge = t.second x.edge → u.first y.edge = t.first x.edge → y = x := by
      intro e1 e2
      exact outer_unique x y t u hx hy ht hu (by rw [Tet.edge, Tet.edge, e1, e2])
    obtain ⟨v1, v2, v3⟩ := newv x t ht
    obtain ⟨w1, w2, w3⟩ := newv y u hu
    have a := n.tri2
    have a' := n'.tri2
    have b := n.tri
    have b' := n'.tri
    have c1 := t1.tri_nfe (twin x.edge)
    have c2 := t1.tri_pfe (twin x.edge)
    have c1' := t2.tri_nfe (twin y.edge)
    have c2' := t2.tri_pfe (twin y.edge)
    simp only [Tet.tri, Prod.mk.injEq] at a a' b b' c1 c2 c1' c2'
    rcases hd with rfl | rfl | rfl | rfl <;> rcases hd' with rfl | rfl | rfl | rfl <;>
      simp only [Tet.tri, Prod.mk.injEq, a, a', b, b', c1, c2, c1', c2'] at he
    · have := hm.tunique x.tet t x.edge y.tet u y.edge ht hu (by simp only [Tet.tri, he])
      have : y = x := by
        obtain ⟨p, q⟩ := x; obtain ⟨p', q'⟩ := y
        simp only at this
        rw [this.1, this.2]
      rw [this]
      exact ⟨rfl, rfl⟩
    all_goals first
      | exact absurd he.1 v1 | exact absurd he.1 v2 | exact absurd he.1 v3
      | exact absurd he.2.1 v1 | exact absurd he.2.1 v2 | exact absurd he.2.1 v3
      | exact absurd he.2.2 v1 | exact absurd he.2.2 v2 | exact absurd he.2.2 v3
      | exact absurd he.1.symm v1 | exact absurd he.1.symm v2 | exact absurd he.1.symm v3
      | exact absurd he.2.1.symm v1 | exact absurd he.2.1.symm v2 | exact absurd he.2.1.symm v3
      | exact absurd he.2.2.symm v1 | exact absurd he.2.2.symm v2 | exact absurd he.2.2.symm v3
      | exact absurd he.1 w1 | exact absurd he.1 w2 | exact absurd he.1 w3
      | exact absurd he.2.1 w1 | exact absurd he.2.1 w2 | exact absurd he.2.1 w3
      | exact absurd he.2.2 w1 | exact absurd he.2.2 w2 | exact absurd he.2.2 w3
      | (have e := side he.1 he.2.1; subst e; exact ⟨rfl, rfl⟩)
      | (have e := side he.2.1 he.2.2; subst e; exact ⟨rfl, rfl⟩)
      | (have e := side he.2.2 he.1; subst e; exact ⟨rfl, rfl⟩)
  · -- tout
    rintro ⟨k, d⟩ t1 k' u e hk ht1 hadjN hu hk' he
    obtain ⟨x, t, hx, rfl, ht, n, hd⟩ := h.newcase3 hF hk ht1 d
    obtain ⟨w1, w2, w3⟩ := newv ⟨k', e⟩ u hu
    have a := n.tri2
    have c1 := t1.tri_nfe (twin x.edge)
    have c2 := t1.tri_pfe (twin x.edge)
    simp only [Tet.tri, Prod.mk.injEq] at a c1 c2
    rcases hd with rfl | rfl | rfl | rfl
    · simp only [n.adj] at hadjN
      obtain ⟨u2, hu2, -⟩ := hm.adj _ t x.edge ht
      have := sur.fresh _ hadjN (outer_adj hx ht)
      rw [hu2] at this
      cases this
    · simp only [Tet.tri, Prod.mk.injEq, a] at he
      exact w3 he.2.2
    · simp only [Tet.tri, Prod.mk.injEq, c1, a] at he
      exact w2 he.2.1
    · simp only [Tet.tri, Prod.mk.injEq, c2, a] at he
      exact w1 he.1
  · -- rin
    have mateRing : ∀ x t, Outer m E x → m.tets.get x.tet = some t → RingT m'.tets.get (nw A x) (nw A (mate x)).twin := by
      intro x t hx ht
      obtain ⟨t', a1, a2⟩ := h.nt hF hx ht
      rw [← (a2 x rfl).adj2]
      exact .step (b := nw A x) (.refl _) a1
    intro k t1 d k' t2 d' hk hk' ht1 ht2 he
    obtain ⟨x, t, hx, rfl, ht, n, hd⟩ := h.newcase4 hF hk ht1 d
    obtain ⟨y, u, hy, rfl, hu, n', hd'⟩ := h.newcase4 hF hk' ht2 d'
    obtain ⟨v1, v2, v3⟩ := newv x t ht
    obtain ⟨w1, w2, w3⟩ := newv y u hu
    have spoke : u.first y.edge = t.first x.edge → RingT m'.tets.get (sp A x) (sp A y) := by
      intro e1
      refine h.spoke_ring hmate hF hx (h.fill.fans x y hx hy ?_)
      simp only [Mesh.first, ht, hu, Option.map_some, e1]
    have tt : ∀ w : Walker, w.twin.twin = w := by
      have tt : ∀ c : Code, _root_.Tet.twin (_root_.Tet.twin c) = c := by decide
      intro w; cases w; simp [Walker.twin, tt]
    have ed : ∀ (z : Tet T) c, z.edge c = (z.first c, z.second c) := fun _ _ => rfl
    rcases hd with rfl | rfl | rfl | rfl <;> rcases hd' with rfl | rfl | rfl | rfl <;>
      simp only [Surgery.edge_twin, n.edge, n'.edge, n.sedge, n'.sedge] at he <;>
      simp only [ed, Prod.mk.injEq] at he
    · rw [outer_unique x y t u hx hy ht hu (by rw [ed, ed, he.1, he.2])]
      exact .refl _
    · have hyx := outer_mate x y t u hx hy ht hu (by rw [ed, ed, he.1, he.2])
      have := mateRing x t hx ht
      rw [← hyx] at this
      exact this
    · exact absurd he.2.symm v2
    · exact absurd he.1.symm v1
    · have hyx := outer_mate x y t u hx hy ht hu (by rw [ed, ed, he.1, he.2])
      have := (mateRing x t hx ht).twin hadj
      rw [← hyx, tt] at this
      exact this
    · rw [outer_unique x y t u hx hy ht hu (by rw [ed, ed, he.1, he.2])]
      exact .refl _
    · exact absurd he.2.symm v1
    · exact absurd he.1.symm v2
    · exact absurd he.2 w2
    · exact absurd he.2 w1
    · exact spoke he.1
    · exact absurd he.1.symm v1
    · exact absurd he.1 w1
    · exact absurd he.1 w2
    · exact absurd he.1 w1
    · exact (spoke he.2).twin hadj
  · -- rnew
    intro k t1 d hk ht1
    obtain ⟨x, t, hx, rfl, ht, n, hd⟩ := h.newcase4 hF hk ht1 d
    rcases hd with rfl | rfl | rfl | rfl
    · exact .inl ⟨x.tet, t, x.edge, hx.1, ht, n.edge.symm⟩
    · exact .inl ⟨x.tet, t, twin x.edge, hx.1, ht, by rw [Surgery.edge_twin, Surgery.edge_twin, n.edge]⟩
    · right
      intro k0 t0 e0 h0 he
      rw [n.sedge] at he
      exact (newv ⟨k0, e0⟩ t0 h0).2.1 (congrArg Prod.snd he)
    · right
      intro k0 t0 e0 h0 he
      rw [Surgery.edge_twin, n.sedge] at he
      exact (newv ⟨k0, e0⟩ t0 h0).1 (congrArg Prod.fst he)
  · -- rold
    intro k t e hk ht
    have ee : m.edge ⟨k, e⟩ = some (t.first e, t.second e) := by simp [Mesh.edge, ht, Tet.edge]
    by_cases hs : ∃ w, Outer m E w ∧ m.edge w = some (t.first e, t.second e)
    · left
      obtain ⟨w, hw, hwe⟩ := hs
      obtain ⟨u, hu⟩ := h.get hw
      obtain ⟨u', a1, a2⟩ := h.nt hF hw hu
      refine ⟨_, u', w.edge, h.mem_new hw, a1, ?_⟩
      rw [(a2 w rfl).edge]
      rw [memE hu] at hwe
      exact Option.some.inj hwe
    · right
      intro k' t1 d ht1 he
      obtain ⟨v1, v2, v3⟩ := newv ⟨k, e⟩ t ht
      by_cases hN : k' ∈ B.map fun b => A (fid b)
      · obtain ⟨x, u, hx, rfl, hu, n, hd⟩ := h.newcase4 hF hN ht1 d
        rcases hd with rfl | rfl | rfl | rfl
        · rw [n.edge] at he
          exact hs ⟨x, hx, by rw [memE hu, he]; rfl⟩
        · rw [Surgery.edge_twin, n.edge] at he
          refine hs ⟨mate x, (hmate x hx).1, ?_⟩
          rw [(hmate x hx).2.1 _ _ (memE hu)]; exact congrArg some he
        · rw [n.sedge] at he
          exact v2 (congrArg Prod.snd he).symm
        · rw [Surgery.edge_twin, n.sedge] at he
          exact v1 (congrArg Prod.fst he).symm
      · obtain ⟨hE, u, hu, rfl⟩ := sur.old hN ht1
        refine hs (h.surface_edge (x := ⟨k, e⟩) (y := ⟨k', d⟩) hk hE ee ?_)
        rw [memE (x := ⟨k', d⟩) hu]
        exact congrArg some he
  · -- lout
    intro x t t' hE ht ha ht'
    have ho := outer_of_adj hE ht ha
    rw [moved_Af] at ht' ⊢
    obtain ⟨t2, a1, a2⟩ := h.nt hF ho ht
    have ht' : m'.tets.get (A (fid x)) = some t' := ht'
    rw [ht'] at a1
    cases a1
    rw [(a2 x rfl).flags]
    show (if face x.edge = face x.edge then _ else _) = _
    rw [if_pos rfl]; rfl
  · -- lin
    rintro ⟨k, d⟩ t1 t2 hk ht1 hadjN ht2
    obtain ⟨x, t, hx, rfl, ht, n, hd⟩ := h.newcase3 hF hk ht1 d
    have sf : ∀ c, face (twin c) ≠ face c := by decide
    rcases hd with rfl | hd
    · exfalso
      simp only [n.adj] at hadjN
      obtain ⟨u2, hu2, -⟩ := hm.adj _ t x.edge ht
      have := sur.fresh _ hadjN (outer_adj hx ht)
      rw [hu2] at this
      cases this
    · have fd : face d = face (twin x.edge) := by
        rcases hd with rfl | rfl | rfl
        · rfl
        · exact face_nfe _
        · exact face_pfe _
      have hadj2 : (t1.adj d).tet = A (fid (mate x)) ∧ face (t1.adj d).edge = face (twin (mate x).edge) := by
        have e1 := n.adj2
        constructor
        · rw [Tet.adj_tet, fd, ← Tet.adj_tet, e1]; rfl
        · rw [Tet.face_adj, fd, ← Tet.face_adj, e1]; rfl
      have ho := (hmate x hx).1
      obtain ⟨u, hu⟩ := h.get ho
      obtain ⟨t3, a1, a2⟩ := h.nt hF ho hu
      simp only at ht2 ⊢
      rw [hadj2.1, a1] at ht2
      cases ht2
      rw [hadj2.2, fd, n.flags, (a2 _ rfl).flags]
      show (if face (twin (mate x).edge) = face (mate x).edge then _ else _) = (if face (twin x.edge) = face x.edge then _ else _)
      rw [if_neg (sf _), if_neg (sf _)]
  · -- msound
    intro htk s w hw
    by_cases h1 : ∃ k t, k ∈ (B.map fun b => A (fid b)) ∧ m'.tets.get k = some t ∧ HasKey t s
    · left
      obtain ⟨w', t, -, h3, h4, h5⟩ := hF.tri.new htk s h1
      rw [hw] at h5
      cases h5
      exact ⟨t, h3, h4⟩
    · by_cases h2 : ∃ k t, k ∈ E ∧ m.tets.get k = some t ∧ HasKey t s
      · rw [hF.tri.gone htk s h1 h2] at hw
        simp at hw
      · right
        rw [hF.tri.keep htk s h1 h2] at hw
        refine ⟨hw, ?_⟩
        intro k hk t e htk he
        exact h2 ⟨k, t, hk, htk, (hasKey_iff_tri (hm.distinct k t htk) s).2 ⟨e, he⟩⟩
  · intro htk k hk t e ht
    obtain ⟨w, t', -, h3, h4, h5⟩ := hF.tri.new htk _ ⟨k, t, hk, ht, (hasKey_iff_tri (dist k hk t ht) _).2 ⟨e, rfl⟩⟩
    exact ⟨w, h5⟩
  · intro htk s w hw hs
    by_cases h1 : ∃ k t, k ∈ (B.map fun b => A (fid b)) ∧ m'.tets.get k = some t ∧ HasKey t s
    · obtain ⟨w', t, -, h3, h4, h5⟩ := hF.tri.new htk s h1
      exact ⟨w', h5⟩
    · refine ⟨w, ?_⟩
      rw [hF.tri.keep htk s h1, hw]
      rintro ⟨k, t, hk, ht, hh⟩
      obtain ⟨e, he⟩ := (hasKey_iff_tri (hm.distinct k t ht) s).1 hh
      exact hs k hk t e ht he

end
end Tet
