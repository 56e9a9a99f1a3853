import Verif.Proofs.FlipInRun

/-!
# Filling a cavity: the result is consistent
-/

namespace Tet
open Spec
variable {P V T : Type}

/-- A new tet `t'` seen from the walker `h` on its outer triangle, which was in `t`. -/
structure NT (v : VId) (A : TId × Fin 4 → TId) (mate : Walker → Walker) (η : VId → EId) (h : Walker) (t t' : Tet T) :
    Prop where
  vertices : t'.vertices = Function.update t.vertices (face h.edge) v
  value : t'.value = t.value
  flags : t'.flags = (t.setup v (face h.edge)).flags
  tri : t'.tri h.edge = t.tri h.edge
  fourth : t'.fourth h.edge = v
  adj : t'.adj h.edge = t.adj h.edge
  tri2 : t'.tri (twin h.edge) = (t.second h.edge, t.first h.edge, v)
  adj2 : t'.adj (twin h.edge) = (nw A (mate h)).twin
  ed : t'.undirEdge h.edge = t.undirEdge h.edge
  sed : t'.undirEdge (toPerm h.edge P0312) = η (t.first h.edge)
  sadj : t'.adj (twin (toPerm h.edge P0312)) = sp A (mate h.pfe)
  sedge : t'.edge (toPerm h.edge P0312) = (t.first h.edge, v)

theorem NT.edge {v : VId} {A : TId × Fin 4 → TId} {mate : Walker → Walker} {η : VId → EId} {h : Walker} {t t' : Tet T}
    (n : NT v A mate η h t t') : t'.edge h.edge = t.edge h.edge := by
  have := n.tri
  simp only [Tet.tri, Prod.mk.injEq] at this
  simp only [Tet.edge, this.1, this.2.1]

theorem RingT.twin {M : TMap T} (hA : AdjT M) {x y : Walker} (h : RingT M x y) : RingT M x.twin y.twin := by
  have tt : ∀ c : Code, _root_.Tet.twin (_root_.Tet.twin c) = c := by decide
  induction h with
  | refl => exact .refl _
  | @step b t h1 hb ih =>
    obtain ⟨t2, e1, e2, -⟩ := hA _ t (_root_.Tet.twin b.edge) hb
    refine .back (t := t2) ?_ e1
    show RingT M _ (t2.adj (_root_.Tet.twin (_root_.Tet.twin _)))
    rw [tt, e2]
    exact ih
  | @back c t h1 hc ih =>
    obtain ⟨t2, e1, e2, -⟩ := hA _ t (_root_.Tet.twin c.edge) hc
    have := RingT.step (t := t2) ih e1
    change RingT M _ (t2.adj (_root_.Tet.twin (_root_.Tet.twin _))) at this
    rw [tt, e2] at this
    exact this

section
variable {m m' : Mesh P V T} {v : VId} {B : List Walker} {E : List TId} {A : TId × Fin 4 → TId}
  {mate : Walker → Walker} {η : VId → EId}

theorem FI.nt (h : FI m v B E) (hF : Flipped m v B E A mate η m') {w : Walker} {t} (hw : Outer m E w)
    (ht : m.tets.get w.tet = some t) : ∃ t', m'.tets.get (A (fid w)) = some t' ∧
      ∀ x, fid x = fid w → NT v A mate η x t t' := by
  obtain ⟨t', a1, a2, a3, a4, a5, a6, a7, a8⟩ := hF.inn w t hw ht
  refine ⟨t', a1, fun x hx => ?_⟩
  have hf : face x.edge = face w.edge := congrArg Prod.snd hx
  have hk : x.tet = w.tet := congrArg Prod.fst hx
  rw [← hf] at a2 a4 a5
  have k1 : ∀ c, firstIdx c ≠ face c ∧ secondIdx c ≠ face c ∧ thirdIdx c ≠ face c := by decide
  have k2 : ∀ c, firstIdx (twin c) = secondIdx c ∧ secondIdx (twin c) = firstIdx c ∧ thirdIdx (twin c) = face c := by decide
  have k3 : ∀ c, firstIdx (toPerm c P0312) = firstIdx c ∧ secondIdx (toPerm c P0312) = face c := by decide
  have k4 : ∀ c, twin (toPerm c P0312) = _root_.Tet.pfe (twin (_root_.Tet.pfe c)) := by decide
  have k5 : ∀ c, toPerm c P0312 = _root_.Tet.nfe (twin c) := by decide
  have e1 : t'.first x.edge = t.first x.edge := by rw [Tet.first, a2, Function.update_of_ne (k1 _).1]; rfl
  have e2 : t'.second x.edge = t.second x.edge := by rw [Tet.second, a2, Function.update_of_ne (k1 _).2.1]; rfl
  have e3 : t'.third x.edge = t.third x.edge := by rw [Tet.third, a2, Function.update_of_ne (k1 _).2.2]; rfl
  have e4 : t'.vertices (face x.edge) = v := by rw [a2, Function.update_self]
  have k2 := k2 x.edge
  refine ⟨a2, a3, a5, ?_, e4, ?_, ?_, a6 x hx, a7 x hx, ?_, ?_, ?_⟩
  · rw [Tet.tri, e1, e2, e3]; rfl
  · rw [Tet.adj, a4]; rfl
  · show (t'.vertices _, t'.vertices _, t'.vertices _) = _
    rw [k2.1, k2.2.1, k2.2.2, e4, ← e1, ← e2]; rfl
  · refine a8 x _ hx ?_
    rw [Mesh.first, hk, ht]; rfl
  · rw [k4, Tet.adj_pfe, show _root_.Tet.pfe x.edge = x.pfe.edge from rfl, a6 x.pfe (by rw [fid_pfe, hx])]
    show Walker.mk _ _ = Walker.mk _ _
    rw [k5]; rfl
  · show (t'.vertices _, t'.vertices _) = _
    rw [(k3 _).1, (k3 _).2, e4, ← e1]; rfl

theorem rot4 : ∀ c d : Code, ∃ c', (c' = c ∨ c' = nfe c ∨ c' = pfe c) ∧
    (d = c' ∨ d = twin c' ∨ d = toPerm c' P0312 ∨ d = twin (toPerm c' P0312)) := by decide

theorem rot3 : ∀ c d : Code, ∃ c', (c' = c ∨ c' = nfe c ∨ c' = pfe c) ∧
    (d = c' ∨ d = twin c' ∨ d = nfe (twin c') ∨ d = pfe (twin c')) := by decide

theorem fid_rot (w : Walker) {c : Code} (hc : c = w.edge ∨ c = nfe w.edge ∨ c = pfe w.edge) : fid ⟨w.tet, c⟩ = fid w := by
  rcases hc with rfl | rfl | rfl
  · rfl
  · exact fid_nfe w
  · exact fid_pfe w

/-- The new tets. -/
theorem FI.newcase (h : FI m v B E) (hF : Flipped m v B E A mate η m') {k t'} (hk : k ∈ B.map fun b => A (fid b))
    (ht' : m'.tets.get k = some t') : ∃ w t, Outer m E w ∧ k = A (fid w) ∧ m.tets.get w.tet = some t ∧
      ∀ x, fid x = fid w → NT v A mate η x t t' := by
  obtain ⟨b, hb, rfl⟩ := List.mem_map.1 hk
  obtain ⟨t, ht⟩ := h.get (h.outer_mem hb)
  obtain ⟨t2, a1, a2⟩ := h.nt hF (h.outer_mem hb) ht
  rw [ht'] at a1
  cases a1
  exact ⟨b, t, h.outer_mem hb, rfl, ht, a2⟩

theorem FI.newcase4 (h : FI m v B E) (hF : Flipped m v B E A mate η m') {k t'} (hk : k ∈ B.map fun b => A (fid b))
    (ht' : m'.tets.get k = some t') (d : Code) : ∃ x t, Outer m E x ∧ k = A (fid x) ∧ m.tets.get x.tet = some t ∧
      NT v A mate η x t t' ∧ (d = x.edge ∨ d = twin x.edge ∨ d = toPerm x.edge P0312 ∨ d = twin (toPerm x.edge P0312)) := by
  obtain ⟨w, t, a1, a2, a3, a4⟩ := h.newcase hF hk ht'
  obtain ⟨c, hc, hd⟩ := rot4 w.edge d
  have hf := fid_rot w hc
  exact ⟨⟨w.tet, c⟩, t, a1.congr hf, by rw [a2, hf], a3, a4 _ hf, hd⟩

theorem FI.newcase3 (h : FI m v B E) (hF : Flipped m v B E A mate η m') {k t'} (hk : k ∈ B.map fun b => A (fid b))
    (ht' : m'.tets.get k = some t') (d : Code) : ∃ x t, Outer m E x ∧ k = A (fid x) ∧ m.tets.get x.tet = some t ∧
      NT v A mate η x t t' ∧ (d = x.edge ∨ d = twin x.edge ∨ d = nfe (twin x.edge) ∨ d = pfe (twin x.edge)) := by
  obtain ⟨w, t, a1, a2, a3, a4⟩ := h.newcase hF hk ht'
  obtain ⟨c, hc, hd⟩ := rot3 w.edge d
  have hf := fid_rot w hc
  exact ⟨⟨w.tet, c⟩, t, a1.congr hf, by rw [a2, hf], a3, a4 _ hf, hd⟩

theorem FI.mem_new (h : FI m v B E) {w : Walker} (hw : Outer m E w) : A (fid w) ∈ B.map fun b => A (fid b) := by
  obtain ⟨b, hb, e⟩ := h.base hw
  rw [e]
  exact List.mem_map_of_mem hb

theorem mate_edge (hmate : IsMate m E mate) {w : Walker} (hw : Outer m E w) {t t2} (ht : m.tets.get w.tet = some t)
    (ht2 : m.tets.get (mate w).tet = some t2) : t2.first (mate w).edge = t.second w.edge ∧ t2.second (mate w).edge = t.first w.edge := by
  have := (hmate w hw).2.1 _ _ (show m.edge w = some (t.first w.edge, t.second w.edge) by simp [Mesh.edge, ht, Tet.edge])
  simp only [Mesh.edge, ht2, Option.map_some, Option.some.injEq, Tet.edge, Prod.mk.injEq] at this
  exact this

/-- A side of a new tet is glued to a side of another. -/
theorem FI.glue (h : FI m v B E) (hmate : IsMate m E mate) (hF : Flipped m v B E A mate η m') {x : Walker} {t t'}
    (hx : Outer m E x) (ht : m.tets.get x.tet = some t) (hn : NT v A mate η x t t') :
    (t'.adj (twin x.edge)).tet ∈ B.map (fun b => A (fid b)) ∧ ∃ t2, m'.tets.get (t'.adj (twin x.edge)).tet = some t2 ∧
      t2.adj (t'.adj (twin x.edge)).edge = ⟨A (fid x), twin x.edge⟩ ∧
      t2.tri (t'.adj (twin x.edge)).edge = (t.first x.edge, t.second x.edge, v) := by
  obtain ⟨o1, -, o3⟩ := hmate x hx
  obtain ⟨t1, ht1⟩ := h.get o1
  obtain ⟨t2, a1, a2⟩ := h.nt hF o1 ht1
  have n2 := a2 _ rfl
  obtain ⟨e1, e2⟩ := mate_edge hmate hx ht ht1
  rw [hn.adj2]
  refine ⟨h.mem_new o1, t2, a1, ?_, ?_⟩
  · show t2.adj (twin (mate x).edge) = _
    rw [n2.adj2, o3]; rfl
  · show t2.tri (twin (mate x).edge) = _
    rw [n2.tri2, e1, e2]

theorem FI.surgery (h : FI m v B E) (hmate : IsMate m E mate) (hF : Flipped m v B E A mate η m') :
    Surgery m.tets.get m'.tets.get E (B.map fun b => A (fid b)) (Af A) := by
  refine ⟨?_, ?_, ?_, ?_, ?_⟩
  · intro k hE hN
    cases ht : m.tets.get k with
    | some t => exact hF.out k t hE ht
    | none =>
      show m'.tets.get k = none
      by_contra hc
      rcases hF.only k (Option.isSome_iff_ne_none.2 hc) with ⟨-, h1⟩ | ⟨w, hw, rfl⟩
      · rw [ht] at h1; cases h1
      · exact hN (h.mem_new hw)
  · intro k hk hE
    obtain ⟨b, hb, rfl⟩ := List.mem_map.1 hk
    exact (hF.fresh b (h.outer_mem hb)).resolve_left hE
  · intro k hE hN
    by_contra hc
    rcases hF.only k (Option.isSome_iff_ne_none.2 hc) with ⟨h1, -⟩ | ⟨w, hw, rfl⟩
    · exact h1 hE
    · exact hN (h.mem_new hw)
  · intro x t hE ht ha
    have ho := outer_of_adj hE ht ha
    obtain ⟨t', a1, a2⟩ := h.nt hF ho ht
    have n := a2 x rfl
    rw [moved_Af]
    exact ⟨h.mem_new ho, t', a1, n.adj, n.tri⟩
  · rintro ⟨k, d⟩ t' hk ht'
    obtain ⟨x, t, hx, rfl, ht, n, hd⟩ := h.newcase3 hF hk ht' d
    obtain ⟨g1, t2, g2, g3, g4⟩ := h.glue hmate hF hx ht n
    simp only [Tet.tri, Prod.mk.injEq] at g4
    have g5 := n.tri2
    simp only [Tet.tri, Prod.mk.injEq] at g5
    rcases hd with rfl | rfl | rfl | rfl
    · left
      exact ⟨x, t, hx.1, ht, outer_adj hx ht, by rw [moved_Af]; rfl⟩
    · right
      refine ⟨g1, t2, g2, g3, ?_⟩
      simp only [Tet.tri, g4, g5]
    · right
      show (t'.adj (_root_.Tet.nfe (twin x.edge))).tet ∈ _ ∧ ∃ t3, m'.tets.get (t'.adj (_root_.Tet.nfe (twin x.edge))).tet = some t3 ∧
        t3.adj (t'.adj (_root_.Tet.nfe (twin x.edge))).edge = _ ∧ t3.tri (t'.adj (_root_.Tet.nfe (twin x.edge))).edge = _
      rw [Tet.adj_nfe]
      refine ⟨g1, t2, g2, ?_, ?_⟩
      · show t2.adj (_root_.Tet.pfe _) = _
        rw [Tet.adj_pfe, g3]; rfl
      · show t2.tri (_root_.Tet.pfe _) = _
        have := t'.tri_nfe (twin x.edge)
        simp only [Tet.tri, Prod.mk.injEq] at this
        simp only [Tet.tri_pfe, g4, g5, this]
    · right
      show (t'.adj (_root_.Tet.pfe (twin x.edge))).tet ∈ _ ∧ ∃ t3, m'.tets.get (t'.adj (_root_.Tet.pfe (twin x.edge))).tet = some t3 ∧
        t3.adj (t'.adj (_root_.Tet.pfe (twin x.edge))).edge = _ ∧ t3.tri (t'.adj (_root_.Tet.pfe (twin x.edge))).edge = _
      rw [Tet.adj_pfe]
      refine ⟨g1, t2, g2, ?_, ?_⟩
      · show t2.adj (_root_.Tet.nfe _) = _
        rw [Tet.adj_nfe, g3]; rfl
      · show t2.tri (_root_.Tet.nfe _) = _
        have := t'.tri_pfe (twin x.edge)
        simp only [Tet.tri, Prod.mk.injEq] at this
        simp only [Tet.tri_nfe, g4, g5, this]

end
end Tet
