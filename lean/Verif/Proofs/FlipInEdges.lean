import Verif.Proofs.FlipInFill

/-!
# Filling a cavity: the new edges
-/

namespace Tet
open Spec
variable {P V T : Type}

/-- The walker along the new edge at the first vertex of an outer triangle. -/
def sp (A : TId × Fin 4 → TId) (h : Walker) : Walker := (nw A h).perm P0312

section
variable {m : Mesh P V T} {v : VId} {B : List Walker} {E : List TId} {A : TId × Fin 4 → TId} {m2 m3 m4 : Mesh P V T}
  {mate : Walker → Walker}

theorem sp_inj (h3 : Dupped m B E A m2 m3) {x y : Walker} (hx : Outer m E x) (hy : Outer m E y) (h : sp A x = sp A y) : x = y := by
  have e1 : A (fid x) = A (fid y) := congrArg Walker.tet h
  have e2 : toPerm x.edge P0312 = toPerm y.edge P0312 := congrArg Walker.edge h
  have k : ∀ c c', toPerm c P0312 = toPerm c' P0312 → c = c' := by decide
  have e3 : x.tet = y.tet := congrArg Prod.fst (h3.inj x y hx hy e1)
  obtain ⟨a, b⟩ := x
  obtain ⟨c, d⟩ := y
  simp only at e2 e3
  rw [e3, k _ _ e2]

/-- Only edges of the new tets have changed: new edges have the ids `σ`. -/
structure SpInv (m m4 : Mesh P V T) (E : List TId) (A : TId × Fin 4 → TId) (σ : Walker → Option EId) (cur : Mesh P V T) : Prop where
  wf : cur.tets.WF
  size : cur.tets.size = m4.tets.size
  out : ∀ k, (∀ w, Outer m E w → k ≠ A (fid w)) → cur.tets.get k = m4.tets.get k
  inn : ∀ w t, Outer m E w → m4.tets.get (A (fid w)) = some t → ∃ es, cur.tets.get (A (fid w)) = some { t with edges := es } ∧
    (∀ h, fid h = fid w → es (undirIdx h.edge) = t.edges (undirIdx h.edge)) ∧
    ∀ h e, fid h = fid w → σ h = some e → es (undirIdx (toPerm h.edge P0312)) = e

theorem SpInv.congr {σ : Walker → Option EId} {cur cur' : Mesh P V T} (hi : SpInv m m4 E A σ cur) (h : cur'.tets = cur.tets) :
    SpInv m m4 E A σ cur' := by
  obtain ⟨h1, h2, h3, h4⟩ := hi
  rw [← h] at h1 h2 h3 h4
  exact ⟨h1, h2, h3, h4⟩

theorem sp_set (h : FI m v B E) (h3 : Dupped m B E A m2 m3) (h4 : Filled m m3 v E A mate m4) {σ : Walker → Option EId}
    {cur : Mesh P V T} (hi : SpInv m m4 E A σ cur) {w : Walker} (hw : Outer m E w) (id : EId) :
    ∃ cur', cur.modTet (sp A w).tet (·.setEdge (undirIdx (sp A w).edge) id) = some cur' ∧ TStep cur cur' ∧
      SpInv m m4 E A (fun x => if x = w then some id else σ x) cur' := by
  classical
  obtain ⟨t0, ht0⟩ := h.get hw
  obtain ⟨t, ht, -⟩ := h4.inn w t0 hw ht0
  obtain ⟨es, hg, h5, h6⟩ := hi.inn w t hw ht
  obtain ⟨cur', a1, a2, a3⟩ := cur.modTet_step (·.setEdge (undirIdx (sp A w).edge) id) hg
  refine ⟨cur', a1, a2, a2.wf hi.wf, a2.size.trans hi.size, ?_, ?_⟩
  · intro k hk
    rw [a3, if_neg (hk w hw), hi.out k hk]
  · intro w' t' hw' ht'
    by_cases hf : fid w' = fid w
    · rw [hf, ht] at ht'
      cases ht'
      rw [hf]
      have k1 : ∀ c c', (c' = c ∨ c' = _root_.Tet.nfe c ∨ c' = _root_.Tet.pfe c) →
        undirIdx c' ≠ undirIdx (toPerm c P0312) := by decide
      have k2 : ∀ c c', (c' = _root_.Tet.nfe c ∨ c' = _root_.Tet.pfe c) →
        undirIdx (toPerm c' P0312) ≠ undirIdx (toPerm c P0312) := by decide
      refine ⟨_, by rw [a3, if_pos rfl]; rfl, ?_, ?_⟩
      · intro x hx
        rw [Function.update_of_ne]
        · exact h5 x hx
        · apply k1
          rcases (sameTri_iff w x).2 hx with h' | h' | h' <;> rw [h']
          · exact .inl rfl
          · exact .inr (.inl rfl)
          · exact .inr (.inr rfl)
      · intro x e hx hxe
        by_cases hxw : x = w
        · rw [if_pos hxw] at hxe
          cases hxe
          rw [hxw]
          exact Function.update_self _ _ _
        · rw [if_neg hxw] at hxe
          rw [Function.update_of_ne]
          · exact h6 x e hx hxe
          · apply k2
            rcases (sameTri_iff w x).2 hx with h' | h' | h'
            · exact absurd h' hxw
            · rw [h']; exact .inl rfl
            · rw [h']; exact .inr rfl
    · obtain ⟨es', h7, h8, h9⟩ := hi.inn w' t' hw' ht'
      refine ⟨es', by rw [a3, if_neg fun e => hf (h3.inj _ _ hw' hw e), h7], h8, ?_⟩
      intro x e hx hxe
      rw [if_neg (by rintro rfl; exact hf hx.symm)] at hxe
      exact h9 x e hx hxe

theorem sp_next (h : FI m v B E) (h4 : Filled m m3 v E A mate m4) {σ : Walker → Option EId}
    {cur : Mesh P V T} (hi : SpInv m m4 E A σ cur) {w : Walker} (hw : Outer m E w) :
    cur.toAdj (sp A w).twin = some (sp A (mate w.pfe)) := by
  obtain ⟨t0, ht0⟩ := h.get hw
  obtain ⟨t, ht, -, -, -, -, -, hl⟩ := h4.inn w t0 hw ht0
  obtain ⟨es, hg, -⟩ := hi.inn w t hw ht
  have h1 := hl w.pfe (fid_pfe w)
  have hg' : cur.tets.get (sp A w).twin.tet = some { t with edges := es } := hg
  rw [Mesh.toAdj_eq hg']
  have k1 : ∀ c, twin (toPerm c P0312) = _root_.Tet.pfe (twin (_root_.Tet.pfe c)) := by decide
  have k2 : ∀ c, toPerm c P0312 = _root_.Tet.nfe (twin c) := by decide
  have : (sp A w).twin.edge = _root_.Tet.pfe (twin (_root_.Tet.pfe w.edge)) := k1 _
  rw [this]
  have e2 : ({ t with edges := es } : Tet T).adj (_root_.Tet.pfe (twin (_root_.Tet.pfe w.edge))) =
    t.adj (_root_.Tet.pfe (twin (_root_.Tet.pfe w.edge))) := rfl
  rw [e2, Tet.adj_pfe]
  have h1 : t.adj (twin (_root_.Tet.pfe w.edge)) = (nw A (mate w.pfe)).twin := h1
  rw [h1]
  simp only [sp, Walker.nfe, Walker.twin, Walker.perm, k2]

theorem sp_ring (h : FI m v B E) (h3 : Dupped m B E A m2 m3) (h4 : Filled m m3 v E A mate m4) (id : EId) {h0 : Walker}
    (ho : Outer m E h0) (l : List Walker) : ∀ {σ : Walker → Option EId} {cur : Mesh P V T} {w : Walker} {fuel : Nat},
    SpInv m m4 E A σ cur → List.IsChain (fun x y => (some (mate x.pfe) : Option Walker) = some y) (w :: l ++ [h0]) →
    (∀ x ∈ w :: l, Outer m E x) → h0 ∉ l → l.length < fuel →
    ∃ cur', Mesh.fiRing id (sp A h0) fuel (sp A w) cur = some cur' ∧ TStep cur cur' ∧
      ∃ σ', SpInv m m4 E A σ' cur' ∧ (∀ x ∈ w :: l, σ' x = some id) ∧ ∀ x, x ∉ w :: l → σ' x = σ x := by
  induction l with
  | nil =>
    intro σ cur w fuel hi hc hl _ hf
    obtain ⟨n, rfl⟩ : ∃ n, fuel = n + 1 := ⟨fuel - 1, by simp at hf; omega⟩
    obtain ⟨c1, a1, a2, a3⟩ := sp_set h h3 h4 hi (hl w (by simp)) id
    have hn := sp_next h h4 a3 (hl w (by simp))
    have e : mate w.pfe = h0 := by simpa using hc
    refine ⟨c1, ?_, a2, _, a3, by simp, fun x hx => if_neg (by simpa using hx)⟩
    simp only [Mesh.fiRing, Option.bind_eq_bind]
    rw [a1, Option.bind_some, hn, Option.bind_some, e, if_neg (by simp)]
    rfl
  | cons y l ih =>
    intro σ cur w fuel hi hc hl hn hf
    obtain ⟨n, rfl⟩ : ∃ n, fuel = n + 1 := ⟨fuel - 1, by simp at hf; omega⟩
    obtain ⟨c1, a1, a2, a3⟩ := sp_set h h3 h4 hi (hl w (by simp)) id
    have hnx := sp_next h h4 a3 (hl w (by simp))
    simp only [List.cons_append, List.isChain_cons_cons, Option.some.injEq] at hc
    rw [List.mem_cons, not_or] at hn
    obtain ⟨c2, b1, b2, σ', b3, b4, b5⟩ := ih (w := y) (fuel := n) a3 (by simpa using hc.2) (fun x hx => hl x (by simp at hx ⊢; tauto)) hn.2
      (by simp at hf; omega)
    refine ⟨c2, ?_, a2.trans b2, σ', b3, ?_, ?_⟩
    · simp only [Mesh.fiRing, Option.bind_eq_bind]
      rw [a1, Option.bind_some, hnx, Option.bind_some, hc.1, if_pos]
      · exact b1
      · exact fun e => hn.1 (sp_inj h3 (hl y (by simp)) ho e).symm
    · intro x hx
      by_cases hx' : x ∈ y :: l
      · exact b4 x hx'
      · rw [b5 x hx', if_pos]
        rcases List.mem_cons.1 hx with h' | h'
        · exact h'
        · exact absurd h' hx'
    · intro x hx
      rw [List.mem_cons, not_or] at hx
      rw [b5 x hx.2, if_neg hx.1]

/-- The cycle around a vertex of the surface. -/
theorem FI.cycle (h : FI m v B E) (hmate : IsMate m E mate) {w : Walker} (hw : Outer m E w) {u : VId}
    (hu : m.first w = some u) : ∃ l, RunsThrough (fun x : Walker => some (mate x.pfe)) w l ∧ (w :: l).Nodup ∧
      ∀ x, x ∈ w :: l ↔ Outer m E x ∧ m.first x = some u := by
  have hpe : ∀ x a b c, m.tri x = some (a, b, c) → m.edge x.pfe = some (c, a) := by
    intro x a b c hx
    simp only [Mesh.tri, Option.map_eq_some_iff] at hx
    obtain ⟨t, h1, h2⟩ := hx
    simp only [Mesh.edge, Walker.pfe, h1, Option.map_some, Option.some.injEq]
    have := Tet.tri_pfe t x.edge
    simp only [Tet.tri, Prod.mk.injEq] at this h2
    rw [Tet.edge, this.1, this.2.1, h2.1, h2.2.2]
  have hstep : ∀ x, Outer m E x → m.first x = some u → Outer m E (mate x.pfe) ∧ m.first (mate x.pfe) = some u := by
    intro x hx hxu
    obtain ⟨t, ht⟩ := h.get hx
    have ho : Outer m E x.pfe := hx.congr (fid_pfe x)
    obtain ⟨h1, h2, -⟩ := hmate _ ho
    have h3 := h2 _ _ (hpe x _ _ _ (show m.tri x = some (t.first x.edge, t.second x.edge, t.third x.edge) by
      simp [Mesh.tri, ht, Tet.tri]))
    refine ⟨h1, ?_⟩
    simp only [Mesh.first, ht, Option.map_some, Option.some.injEq] at hxu
    simp only [Mesh.edge, Option.map_eq_some_iff, Tet.edge, Prod.mk.injEq] at h3
    obtain ⟨t', h4, h5, -⟩ := h3
    simp only [Mesh.first, h4, Option.map_some, h5, hxu]
  obtain ⟨l, h1, h2, h3⟩ := exists_runsThrough (next := fun x : Walker => some (mate x.pfe))
    (S := {x | Outer m E x ∧ m.first x = some u})
    ((live_finite m).subset fun x hx => h.fill.live _ hx.1.1)
    (fun x hx => ⟨_, hstep x hx.1 hx.2, rfl⟩)
    (by
      intro x hx y hy hxy
      have e := Option.some.inj hxy
      have e' : mate (mate x.pfe) = mate (mate y.pfe) := by rw [e]
      rw [(hmate _ (hx.1.congr (fid_pfe x))).2.2, (hmate _ (hy.1.congr (fid_pfe y))).2.2] at e'
      have := congrArg Walker.nfe e'
      rwa [Walker.nfe_pfe, Walker.nfe_pfe] at this) (a := w) ⟨hw, hu⟩
  refine ⟨l, h1, h2, fun x => ⟨fun hx => ?_, fun hx => ?_⟩⟩
  · rcases List.mem_cons.1 hx with rfl | hx
    · exact ⟨hw, hu⟩
    · exact h3 x hx
  · have hf := h.fill.fans w x hw hx.1 (by rw [hu, hx.2])
    clear hx
    induction hf with
    | refl => simp
    | @step p q a b c _ e1 e2 e3 ih =>
      obtain ⟨y, hy, hyn⟩ := h1.succ ih
      have hp : Outer m E p ∧ m.first p = some u := by
        rcases List.mem_cons.1 ih with rfl | ih
        · exact ⟨hw, hu⟩
        · exact h3 p ih
      obtain ⟨k1, k2, -⟩ := hmate _ (hp.1.congr (fid_pfe p))
      have : mate p.pfe = q := h.fill.edges _ _ k1 e2 (by rw [e3, k2 _ _ (hpe p a b c e1)])
      have hyq : y = q := (Option.some.inj hyn).symm.trans this
      exact hyq ▸ hy

end
end Tet
