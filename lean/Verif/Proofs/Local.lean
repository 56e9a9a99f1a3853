import Verif.Spec.Local
import Verif.Proofs.Flip44

/-!
# Flips are local

An invariant of the intermediate meshes of a flip, for arbitrary meshes.
-/

namespace Tet
open Spec
variable {P V T : Type}

structure Loc (m0 : Mesh P V T) (S D : List TId) (m : Mesh P V T) : Prop where
  wf : m.tets.WF
  vs : SameVertices m0 m
  keep : KeepsTets m0 m S D

theorem Loc.refl (m : Mesh P V T) (h : m.tets.WF) (S D) : Loc m S D m :=
  ⟨h, ⟨fun _ => rfl, rfl, rfl, rfl⟩, fun k t ht _ => ⟨t, ht, rfl, fun _ => rfl⟩⟩

/-- The id is in the region or new. -/
def Inside (m0 : Mesh P V T) (S : List TId) (k : TId) : Prop := k ∈ S ∨ m0.tets.get k = none

namespace Loc
variable {m0 m m' : Mesh P V T} {S D : List TId}

theorem modTet (h : Loc m0 S D m) {k f} (e : m.modTet k f = some m') (hf : ∀ t, (f t).value = t.value)
    (hv : Inside m0 S k ∨ ∀ t, (f t).vertices = t.vertices) : Loc m0 S D m' := by
  unfold Mesh.modTet at e
  split_ifs at e with he
  cases e
  refine ⟨h.wf.modify k f, h.vs, ?_⟩
  intro j t hj hd
  obtain ⟨t', h1, h2, h3⟩ := h.keep j t hj hd
  simp only [IdMap.get_modify]
  split_ifs with hjk
  · subst hjk
    refine ⟨f t', by rw [h1]; rfl, (hf t').trans h2, fun hS => ?_⟩
    rcases hv with (h4 | h4) | h4
    · exact absurd h4 hS
    · rw [h4] at hj; cases hj
    · exact (h4 t').trans (h3 hS)
  · exact ⟨t', h1, h2, h3⟩

theorem insertTet (h : Loc m0 S [] m) {t0 id} (e : m.insertTet t0 = some (m', id)) :
    Loc m0 S [] m' ∧ m0.tets.get id = none := by
  simp only [Mesh.insertTet, Option.bind_eq_bind, Option.bind_eq_some_iff, Option.pure_def, Option.some.injEq,
    Prod.mk.injEq] at e
  obtain ⟨⟨ts, k⟩, h1, rfl, rfl⟩ := e
  obtain ⟨g1, g3, -, g4, -⟩ := IdMap.insert_some h.wf h1
  refine ⟨⟨g1, h.vs, ?_⟩, ?_⟩
  · intro j t hj hd
    obtain ⟨t', k1, h2, h3⟩ := h.keep j t hj hd
    refine ⟨t', ?_, h2, h3⟩
    show ts.get j = _
    rw [g4, if_neg]
    · exact k1
    · rintro rfl
      rw [g3] at k1
      cases k1
  · cases hc : m0.tets.get k with
    | none => rfl
    | some t =>
      obtain ⟨t', h1, -⟩ := h.keep k t hc (by simp)
      rw [g3] at h1
      cases h1

theorem insertEdge (h : Loc m0 S D m) {vs e'} (e : m.insertEdge vs = some (m', e')) : Loc m0 S D m' := by
  simp only [Mesh.insertEdge, Option.bind_eq_bind, Option.bind_eq_some_iff, Option.pure_def, Option.some.injEq,
    Prod.mk.injEq] at e
  obtain ⟨⟨ts, k⟩, h1, rfl, rfl⟩ := e
  exact ⟨h.wf, h.vs, h.keep⟩

theorem removeEdge (h : Loc m0 S D m) {e'} (e : m.removeEdge e' = some m') : Loc m0 S D m' := by
  simp only [Mesh.removeEdge, Option.bind_eq_bind, Option.bind_eq_some_iff, Option.pure_def, Option.some.injEq] at e
  obtain ⟨⟨ts, k⟩, h1, rfl⟩ := e
  exact ⟨h.wf, h.vs, h.keep⟩

theorem removeTet (h : Loc m0 S D m) {k} (e : m.removeTet k = some m') : Loc m0 S (k :: D) m' := by
  simp only [Mesh.removeTet, Option.bind_eq_bind, Option.bind_eq_some_iff, Option.pure_def, Option.some.injEq] at e
  obtain ⟨⟨ts, x⟩, h1, rfl⟩ := e
  obtain ⟨ts', g0, g1, g3, -⟩ := IdMap.remove_spec k h.wf
  rw [h1] at g0
  obtain ⟨rfl, rfl⟩ : ts = ts' ∧ x = m.tets.get k := by simpa using g0
  refine ⟨g1, h.vs, ?_⟩
  intro j t hj hd
  rw [List.mem_cons, not_or] at hd
  obtain ⟨t', h1, h2, h3⟩ := h.keep j t hj hd.2
  refine ⟨t', ?_, h2, h3⟩
  show ts.get j = _
  rw [g3, if_neg hd.1]
  exact h1

theorem setVertexTet (h : Loc m0 S D m) (v w) : Loc m0 S D (m.setVertexTet v w) := by
  refine ⟨h.wf, ⟨fun u => ?_, h.vs.2⟩, h.keep⟩
  rw [← h.vs.1 u]
  simp only [Mesh.setVertexTet, IdMap.get_modify]
  split_ifs with hu
  · cases m.vertices.get u <;> rfl
  · rfl

theorem tri (h : Loc m0 S D m) (tm) : Loc m0 S D { m with triMap := tm } := ⟨h.wf, h.vs, h.keep⟩

theorem foldTri {f : Mesh P V T → TId → Option (Mesh P V T)}
    (hf : ∀ m k m', f m k = some m' → ∃ tm, m' = { m with triMap := tm }) :
    ∀ (ks : List TId) {m m' : Mesh P V T}, Loc m0 S D m → ks.foldlM f m = some m' → Loc m0 S D m'
  | [], m, m', h, e => by
    simp only [List.foldlM_nil, Option.pure_def, Option.some.injEq] at e
    exact e ▸ h
  | k :: ks, m, m', h, e => by
    simp only [List.foldlM_cons, Option.bind_eq_bind, Option.bind_eq_some_iff] at e
    obtain ⟨m1, h1, h2⟩ := e
    obtain ⟨tm, rfl⟩ := hf _ _ _ h1
    exact foldTri hf ks (h.tri tm) h2

theorem triRemoveTets (h : Loc m0 S D m) {ks} (e : m.triRemoveTets ks = some m') : Loc m0 S D m' := by
  unfold Mesh.triRemoveTets at e
  split_ifs at e
  · refine foldTri ?_ ks h e
    intro m k m' hk
    simp only [Mesh.triRemoveTet, Option.bind_eq_bind, Option.bind_eq_some_iff, Option.pure_def,
      Option.some.injEq] at hk
    obtain ⟨t, -, rfl⟩ := hk
    exact ⟨_, rfl⟩
  · cases e; exact h

theorem triInsertTets (h : Loc m0 S D m) {ks} (e : m.triInsertTets ks = some m') : Loc m0 S D m' := by
  unfold Mesh.triInsertTets at e
  split_ifs at e
  · refine foldTri ?_ ks h e
    intro m k m' hk
    simp only [Mesh.triInsertTet, Option.bind_eq_bind, Option.bind_eq_some_iff, Option.pure_def,
      Option.some.injEq] at hk
    obtain ⟨t, -, rfl⟩ := hk
    exact ⟨_, rfl⟩
  · cases e; exact h

theorem redirect (h : Loc m0 S D m) {a k c} (e : m.redirect a k c = some m') : Loc m0 S D m' :=
  h.modTet e (fun _ => rfl) (.inr fun _ => rfl)

theorem copyLock (h : Loc m0 S D m) {a k i} (e : m.copyLock a k i = some m') : Loc m0 S D m' := by
  simp only [Mesh.copyLock, Option.bind_eq_bind, Option.bind_eq_some_iff] at e
  obtain ⟨l, -, e⟩ := e
  split_ifs at e
  · exact h.modTet e (fun _ => rfl) (.inr fun _ => rfl)
  · cases e; exact h

theorem copyEdge (h : Loc m0 S D m) {a k i} (e : m.copyEdge a k i = some m') : Loc m0 S D m' := by
  simp only [Mesh.copyEdge, Option.bind_eq_bind, Option.bind_eq_some_iff] at e
  obtain ⟨l, -, e⟩ := e
  exact h.modTet e (fun _ => rfl) (.inr fun _ => rfl)

theorem copyEdgeSlot (h : Loc m0 S D m) {a j k i} (e : m.copyEdgeSlot a j k i = some m') : Loc m0 S D m' := by
  simp only [Mesh.copyEdgeSlot, Option.bind_eq_bind, Option.bind_eq_some_iff] at e
  obtain ⟨l, -, e⟩ := e
  exact h.modTet e (fun _ => rfl) (.inr fun _ => rfl)

theorem flip14Adj (h : Loc m0 S D m) {k i} (e : m.flip14Adj k i = some m') : Loc m0 S D m' := by
  simp only [Mesh.flip14Adj, Option.bind_eq_bind, Option.bind_eq_some_iff] at e
  obtain ⟨l, -, e⟩ := e
  exact h.modTet e (fun _ => rfl) (.inr fun _ => rfl)

theorem clear (h : Loc m0 S D m) {k l} (e : m.modTet k (·.clearLocked l) = some m') : Loc m0 S D m' :=
  h.modTet e (fun _ => rfl) (.inr fun _ => rfl)

theorem flip23New (h : Loc m0 S D m) {id a b va vb v3 v4 wb wt ed} (hi : Inside m0 S id)
    (e : m.flip23New id a b va vb v3 v4 wb wt ed = some m') : Loc m0 S D m' := by
  simp only [Mesh.flip23New, Option.bind_eq_bind, Option.bind_eq_some_iff] at e
  obtain ⟨m1, h1, m2, h2, m3, h3, m4, h4, m5, h5, m6, h6, m7, h7, h8⟩ := e
  exact ((((((((h.modTet h1 (fun _ => rfl) (.inl hi)).copyEdge h2).copyEdge h3).copyEdge h4).copyEdge
    h5).copyEdge h6).copyLock h7).copyLock h8)

theorem flip32Top (h : Loc m0 S D m) {id0 id1 a b c d x y z} (hi : Inside m0 S id0)
    (e : m.flip32Top id0 id1 a b c d x y z = some m') : Loc m0 S D m' := by
  simp only [Mesh.flip32Top, Option.bind_eq_bind, Option.bind_eq_some_iff] at e
  obtain ⟨m1, h1, m2, h2, m3, h3, m4, h4, m5, h5, m6, h6, m7, h7, m8, h8, m9, h9, h10⟩ := e
  exact ((((((((((h.modTet h1 (fun _ => rfl) (.inl hi)).copyEdge h2).copyEdge h3).copyEdge h4).copyEdge
    h5).copyEdge h6).copyEdge h7).copyLock h8).copyLock h9).copyLock h10)

theorem flip32Bottom (h : Loc m0 S D m) {id0 id1 a b c d x y z} (hi : Inside m0 S id1)
    (e : m.flip32Bottom id0 id1 a b c d x y z = some m') : Loc m0 S D m' := by
  simp only [Mesh.flip32Bottom, Option.bind_eq_bind, Option.bind_eq_some_iff] at e
  obtain ⟨m1, h1, m2, h2, m3, h3, m4, h4, m5, h5, m6, h6, m7, h7, m8, h8, m9, h9, h10⟩ := e
  exact ((((((((((h.modTet h1 (fun _ => rfl) (.inl hi)).copyEdge h2).copyEdgeSlot h3).copyEdgeSlot h4).copyEdge
    h5).copyEdge h6).copyEdgeSlot h7).copyLock h8).copyLock h9).copyLock h10)

end Loc

theorem flip14_loc {m m' : Mesh P V T} (hm : m.tets.WF) {w v ws} (h : m.flip14Unchecked w v = some (m', ws)) :
    Loc m [w.tet] [] m' := by
  unfold Mesh.flip14Unchecked at h
  obtain ⟨t0, -, h⟩ := Option.bind_eq_some_iff.1 h
  obtain ⟨⟨m1, i1⟩, h1, h⟩ := Option.bind_eq_some_iff.1 h
  obtain ⟨⟨m2, i2⟩, h2, h⟩ := Option.bind_eq_some_iff.1 h
  obtain ⟨⟨m3, i3⟩, h3, h⟩ := Option.bind_eq_some_iff.1 h
  obtain ⟨m4, h4, h⟩ := Option.bind_eq_some_iff.1 h
  obtain ⟨m5, h5, h⟩ := Option.bind_eq_some_iff.1 h
  obtain ⟨m6, h6, h⟩ := Option.bind_eq_some_iff.1 h
  obtain ⟨m7, h7, h⟩ := Option.bind_eq_some_iff.1 h
  obtain ⟨m8, h8, h⟩ := Option.bind_eq_some_iff.1 h
  obtain ⟨x, -, h⟩ := Option.bind_eq_some_iff.1 h
  obtain ⟨⟨m9, e0⟩, h9, h⟩ := Option.bind_eq_some_iff.1 h
  obtain ⟨⟨m10, e1⟩, h10, h⟩ := Option.bind_eq_some_iff.1 h
  obtain ⟨⟨m11, e2⟩, h11, h⟩ := Option.bind_eq_some_iff.1 h
  obtain ⟨⟨m12, e3⟩, h12, h⟩ := Option.bind_eq_some_iff.1 h
  obtain ⟨m13, h13, h⟩ := Option.bind_eq_some_iff.1 h
  obtain ⟨m14, h14, h⟩ := Option.bind_eq_some_iff.1 h
  obtain ⟨m15, h15, h⟩ := Option.bind_eq_some_iff.1 h
  obtain ⟨m16, h16, h⟩ := Option.bind_eq_some_iff.1 h
  obtain ⟨m17, h17, h⟩ := Option.bind_eq_some_iff.1 h
  obtain ⟨m18, h18, h⟩ := Option.bind_eq_some_iff.1 h
  obtain ⟨m19, h19, h⟩ := Option.bind_eq_some_iff.1 h
  obtain ⟨m20, h20, h⟩ := Option.bind_eq_some_iff.1 h
  obtain ⟨rfl, -⟩ := Prod.mk.inj (Option.some.inj h)
  obtain ⟨l1, n1⟩ := (Loc.refl m hm [w.tet] []).insertTet h1
  obtain ⟨l2, n2⟩ := l1.insertTet h2
  obtain ⟨l3, n3⟩ := l2.insertTet h3
  have l8 := ((((l3.clear h4).clear h5).clear h6).clear h7).triRemoveTets h8
  have l12 := (((((((((l8.setVertexTet _ _).setVertexTet _ _).setVertexTet _ _).setVertexTet _ _).setVertexTet
    _ _).insertEdge h9).insertEdge h10).insertEdge h11).insertEdge h12)
  have l13 := l12.modTet h13 (fun _ => rfl) (.inl (.inl (by simp)))
  have l14 := l13.modTet h14 (fun _ => rfl) (.inl (.inr n1))
  have l15 := l14.modTet h15 (fun _ => rfl) (.inl (.inr n2))
  have l16 := l15.modTet h16 (fun _ => rfl) (.inl (.inr n3))
  exact (((l16.flip14Adj h17).flip14Adj h18).flip14Adj h19).triInsertTets h20

theorem flip23_loc {m m' : Mesh P V T} (hm : m.tets.WF) {w o ws} (ho : m.toAdj w = some o)
    (h : m.flip23Unchecked w = some (m', ws)) : Loc m [w.tet, o.tet] [] m' := by
  unfold Mesh.flip23Unchecked at h
  obtain ⟨o', ho', h⟩ := Option.bind_eq_some_iff.1 h
  obtain ⟨t0, -, h⟩ := Option.bind_eq_some_iff.1 h
  obtain ⟨⟨m1, i1⟩, h1, h⟩ := Option.bind_eq_some_iff.1 h
  obtain ⟨m2, h2, h⟩ := Option.bind_eq_some_iff.1 h
  obtain ⟨m3, h3, h⟩ := Option.bind_eq_some_iff.1 h
  obtain ⟨m4, h4, h⟩ := Option.bind_eq_some_iff.1 h
  obtain ⟨m5, h5, h⟩ := Option.bind_eq_some_iff.1 h
  obtain ⟨a0, -, h⟩ := Option.bind_eq_some_iff.1 h
  obtain ⟨m6, h6, h⟩ := Option.bind_eq_some_iff.1 h
  obtain ⟨a1, -, h⟩ := Option.bind_eq_some_iff.1 h
  obtain ⟨m7, h7, h⟩ := Option.bind_eq_some_iff.1 h
  obtain ⟨a2, -, h⟩ := Option.bind_eq_some_iff.1 h
  obtain ⟨m8, h8, h⟩ := Option.bind_eq_some_iff.1 h
  obtain ⟨b0, -, h⟩ := Option.bind_eq_some_iff.1 h
  obtain ⟨m9, h9, h⟩ := Option.bind_eq_some_iff.1 h
  obtain ⟨b1, -, h⟩ := Option.bind_eq_some_iff.1 h
  obtain ⟨m10, h10, h⟩ := Option.bind_eq_some_iff.1 h
  obtain ⟨b2, -, h⟩ := Option.bind_eq_some_iff.1 h
  obtain ⟨m11, h11, h⟩ := Option.bind_eq_some_iff.1 h
  obtain ⟨⟨v1, v0, v2, v3⟩, -, h⟩ := Option.bind_eq_some_iff.1 h
  obtain ⟨v4, -, h⟩ := Option.bind_eq_some_iff.1 h
  obtain ⟨⟨m12, e⟩, h12, h⟩ := Option.bind_eq_some_iff.1 h
  obtain ⟨m13, h13, h⟩ := Option.bind_eq_some_iff.1 h
  obtain ⟨m14, h14, h⟩ := Option.bind_eq_some_iff.1 h
  obtain ⟨m15, h15, h⟩ := Option.bind_eq_some_iff.1 h
  obtain ⟨m16, h16, h⟩ := Option.bind_eq_some_iff.1 h
  obtain ⟨rfl, -⟩ := Prod.mk.inj (Option.some.inj h)
  rw [ho] at ho'
  cases ho'
  obtain ⟨l1, n1⟩ := (Loc.refl m hm [w.tet, o.tet] []).insertTet h1
  have l5 := (((l1.clear h2).clear h3).clear h4).triRemoveTets h5
  have l11 := (((((l5.redirect h6).redirect h7).redirect h8).redirect h9).redirect h10).redirect h11
  have l12 := ((((((l11.setVertexTet _ _).setVertexTet _ _).setVertexTet _ _).setVertexTet _ _).setVertexTet
    _ _).insertEdge h12)
  exact (((l12.flip23New (.inl (by simp)) h13).flip23New (.inl (by simp)) h14).flip23New (.inr n1)
    h15).triInsertTets h16

theorem flip32_loc {m m' : Mesh P V T} (hm : m.tets.WF) {w o1 o2 ws} (s1 : m.ringStep w = some o1)
    (s2 : m.ringStep o1 = some o2)
    (h : m.flip32Unchecked w = some (m', ws)) : Loc m [w.tet, o1.tet, o2.tet] [o2.tet] m' := by
  unfold Mesh.flip32Unchecked at h
  obtain ⟨o1', ho1, h⟩ := Option.bind_eq_some_iff.1 h
  obtain ⟨o2', ho2, h⟩ := Option.bind_eq_some_iff.1 h
  obtain ⟨m2, h2, h⟩ := Option.bind_eq_some_iff.1 h
  obtain ⟨m3, h3, h⟩ := Option.bind_eq_some_iff.1 h
  obtain ⟨m5, h5, h⟩ := Option.bind_eq_some_iff.1 h
  obtain ⟨a0, -, h⟩ := Option.bind_eq_some_iff.1 h
  obtain ⟨m6, h6, h⟩ := Option.bind_eq_some_iff.1 h
  obtain ⟨a1, -, h⟩ := Option.bind_eq_some_iff.1 h
  obtain ⟨m7, h7, h⟩ := Option.bind_eq_some_iff.1 h
  obtain ⟨a2, -, h⟩ := Option.bind_eq_some_iff.1 h
  obtain ⟨m8, h8, h⟩ := Option.bind_eq_some_iff.1 h
  obtain ⟨b0, -, h⟩ := Option.bind_eq_some_iff.1 h
  obtain ⟨m9, h9, h⟩ := Option.bind_eq_some_iff.1 h
  obtain ⟨b1, -, h⟩ := Option.bind_eq_some_iff.1 h
  obtain ⟨m10, h10, h⟩ := Option.bind_eq_some_iff.1 h
  obtain ⟨b2, -, h⟩ := Option.bind_eq_some_iff.1 h
  obtain ⟨m11, h11, h⟩ := Option.bind_eq_some_iff.1 h
  obtain ⟨⟨v3, v4, v1, v0⟩, -, h⟩ := Option.bind_eq_some_iff.1 h
  obtain ⟨v2, -, h⟩ := Option.bind_eq_some_iff.1 h
  obtain ⟨m13, h13, h⟩ := Option.bind_eq_some_iff.1 h
  obtain ⟨m14, h14, h⟩ := Option.bind_eq_some_iff.1 h
  obtain ⟨e, -, h⟩ := Option.bind_eq_some_iff.1 h
  obtain ⟨m15, h15, h⟩ := Option.bind_eq_some_iff.1 h
  obtain ⟨m16, h16, h⟩ := Option.bind_eq_some_iff.1 h
  obtain ⟨m17, h17, h⟩ := Option.bind_eq_some_iff.1 h
  obtain ⟨rfl, -⟩ := Prod.mk.inj (Option.some.inj h)
  rw [Mesh.ringStep, ho1] at s1
  cases s1
  rw [Mesh.ringStep, ho2] at s2
  cases s2
  have l5 := (((Loc.refl m hm [w.tet, o1.tet, o2.tet] []).clear h2).clear h3).triRemoveTets h5
  have l11 := (((((l5.redirect h6).redirect h7).redirect h8).redirect h9).redirect h10).redirect h11
  exact (((((((((l11.setVertexTet _ _).setVertexTet _ _).setVertexTet _ _).setVertexTet _ _).setVertexTet
    _ _).flip32Top (.inl (by simp)) h13).flip32Bottom (.inl (by simp)) h14).removeEdge h15).removeTet
    h16).triInsertTets h17

end Tet
