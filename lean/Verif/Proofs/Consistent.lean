import Verif.Proofs.Surgery

/-! Consistency in terms of the lookup functions, and its preservation by replacements. -/

namespace Tet
open Spec

variable {P V T : Type}

namespace Tet
theorem tri_nfe (t : Tet T) (e) : t.tri (nfe e) = (t.second e, t.third e, t.first e) := by
  have h : ∀ e, firstIdx (nfe e) = secondIdx e ∧ secondIdx (nfe e) = thirdIdx e ∧
      thirdIdx (nfe e) = firstIdx e := by decide
  simp [tri, first, second, third, h]

theorem tri_pfe (t : Tet T) (e) : t.tri (pfe e) = (t.third e, t.first e, t.second e) := by
  have h : ∀ e, firstIdx (pfe e) = thirdIdx e ∧ secondIdx (pfe e) = firstIdx e ∧
      thirdIdx (pfe e) = secondIdx e := by decide
  simp [tri, first, second, third, h]

theorem ne_of_inj {t : Tet T} (h : Function.Injective t.vertices) (e) :
    t.first e ≠ t.second e ∧ t.second e ≠ t.third e ∧ t.third e ≠ t.first e ∧
    t.first e ≠ t.fourth e ∧ t.second e ≠ t.fourth e ∧ t.third e ≠ t.fourth e := by
  have hd : ∀ e, firstIdx e ≠ secondIdx e ∧ secondIdx e ≠ thirdIdx e ∧ thirdIdx e ≠ firstIdx e ∧
    firstIdx e ≠ face e ∧ secondIdx e ≠ face e ∧ thirdIdx e ≠ face e := by decide
  obtain ⟨h1, h2, h3, h4, h5, h6⟩ := hd e
  exact ⟨fun x => h1 (h x), fun x => h2 (h x), fun x => h3 (h x), fun x => h4 (h x),
    fun x => h5 (h x), fun x => h6 (h x)⟩

theorem inj_iff_nodup (t : Tet T) (e) : Function.Injective t.vertices ↔
    [t.first e, t.second e, t.third e, t.fourth e].Nodup := by
  constructor
  · intro h
    obtain ⟨h1, h2, h3, h4, h5, h6⟩ := ne_of_inj h e
    simp [h1, h2, h3, h4, h5, h6, h3.symm]
  · intro h i j hij
    simp only [List.nodup_cons, List.mem_cons, List.not_mem_nil, or_false, not_or, first_eq,
      second_eq, third_eq, fourth_eq] at h
    have surj : ∀ e i, i = perms e 0 ∨ i = perms e 1 ∨ i = perms e 2 ∨ i = perms e 3 := by decide
    rcases surj e i with rfl | rfl | rfl | rfl <;> rcases surj e j with rfl | rfl | rfl | rfl <;>
      simp_all

/-- The key of a triangle does not depend on the edge of the walker. -/
theorem triKey_face {t : Tet T} (h : Function.Injective t.vertices) {e e'} (hf : face e = face e') :
    triKey (t.tri e') = triKey (t.tri e) := by
  obtain ⟨h1, h2, h3, -⟩ := ne_of_inj h e
  refine triKey_of_rotation (x := t.tri e) ⟨h1, h2, h3⟩ ?_
  rcases (face_eq_iff e e').1 hf with rfl | rfl | rfl
  · exact .inl rfl
  · exact .inr (.inl (t.tri_nfe e))
  · exact .inr (.inr (t.tri_pfe e))

end Tet

/-- Consistency in terms of the lookup functions. -/
structure ConsistentT (m : Mesh P V T) : Prop where
  stored : m.vertices.WF ∧ m.edges.WF ∧ m.tets.WF
  adj : AdjT m.tets.get
  distinct : DistinctT m.tets.get
  vref : ∀ v x, m.vertices.get v = some x → x.tet.tet = idMax ∨
    ∃ t, m.tets.get x.tet.tet = some t ∧ t.first x.tet.edge = v
  vlive : ∀ k t i, m.tets.get k = some t → t.vertices i = GHOST ∨
    ∃ x t', m.vertices.get (t.vertices i) = some x ∧ m.tets.get x.tet.tet = some t' ∧
      t'.first x.tet.edge = t.vertices i
  eptr : ∀ k t e, m.tets.get k = some t → ∃ ue, m.edges.get (t.undirEdge e) = some ue ∧
    ue.vertices = sorted2 (t.edge e)
  eunique : ∀ e e' ue ue', m.edges.get e = some ue → m.edges.get e' = some ue' →
    ue.vertices = ue'.vertices → e = e'
  eused : ∀ e ue, m.edges.get e = some ue → ∃ k t i, m.tets.get k = some t ∧ t.undirEdge i = e
  tunique : TriUniqueT m.tets.get
  ring : OneRingT m.tets.get
  locks : LocksT m.tets.get
  tsound : m.trackTriMap = true → ∀ s w, m.triMap s = some w →
    ∃ t, m.tets.get w.tet = some t ∧ triKey (t.tri w.edge) = s
  tcomplete : m.trackTriMap = true → ∀ k t e, m.tets.get k = some t →
    ∃ w, m.triMap (triKey (t.tri e)) = some w

theorem min_max_sorted2 (a b : Nat) : (min a b, max a b) = sorted2 (a, b) := by
  simp only [sorted2]
  split_ifs with h
  · simp [Nat.min_eq_right (Nat.le_of_lt h), Nat.max_eq_left (Nat.le_of_lt h)]
  · simp [Nat.min_eq_left (Nat.le_of_not_lt h), Nat.max_eq_right (Nat.le_of_not_lt h)]

theorem sameRing_iff (m : Mesh P V T) (a b : Walker) : SameRing m a b ↔ RingT m.tets.get a b := by
  constructor
  · intro h
    induction h with
    | refl => exact .refl _
    | @step b c _ hs ih =>
      simp only [Mesh.toAdj, Walker.twin, Option.map_eq_some_iff] at hs
      obtain ⟨t, ht, rfl⟩ := hs
      exact .step ih ht
    | @back b c _ hs ih =>
      simp only [Mesh.toAdj, Walker.twin, Option.map_eq_some_iff] at hs
      obtain ⟨t, ht, rfl⟩ := hs
      exact .back ih ht
  · intro h
    induction h with
    | refl => exact .refl _
    | @step b t _ hs ih => exact .step ih (by simp [Mesh.toAdj, Walker.twin, hs])
    | @back c t _ hs ih => exact .back ih (by simp [Mesh.toAdj, Walker.twin, hs])

theorem Spec.Consistent.toT {m : Mesh P V T} (h : Consistent m) : ConsistentT m := by
  have hd : DistinctT m.tets.get := by
    intro k t ht
    have := h.distinct ⟨k, 3⟩ _ _ _ _ (by simp only [Mesh.tet4, ht, Option.map_some]; rfl)
    exact (t.inj_iff_nodup 3).2 this
  refine ⟨h.stored, ?_, hd, ?_, ?_, ?_, h.edgeUnique, ?_, ?_, ?_, ?_, ?_, ?_⟩
  · intro k t e ht
    obtain ⟨w', a, b, c, h1, h2, h3, h4⟩ := h.adjacent ⟨k, e⟩ (by simp [Live, ht])
    simp only [Mesh.toAdj, ht, Option.map_some, Option.some.injEq] at h1
    subst h1
    simp only [Mesh.toAdj, Option.map_eq_some_iff] at h2
    obtain ⟨t', ht', h2⟩ := h2
    refine ⟨t', ht', h2, ?_⟩
    simp only [Mesh.tri, ht, ht', Option.map_some, Option.some.injEq] at h3 h4
    simp only [Tet.tri, Prod.mk.injEq] at h3
    rw [h4, h3.1, h3.2.1, h3.2.2]
  · intro v x hx
    rcases h.vertexRef v x hx with h1 | h1
    · exact .inl h1
    · simp only [Mesh.first, Option.map_eq_some_iff] at h1
      exact .inr h1
  · intro k t i ht
    have : ∀ i, ∃ e, firstIdx e = i := by decide
    obtain ⟨e, he⟩ := this i
    have := h.vertexLive ⟨k, e⟩ (t.vertices i) (by simp [Mesh.first, ht, Tet.first, he])
    rcases this with h1 | ⟨x, h1, h2⟩
    · exact .inl h1
    · simp only [Mesh.first, Option.map_eq_some_iff] at h2
      obtain ⟨t', h2, h3⟩ := h2
      exact .inr ⟨x, t', h1, h2, h3⟩
  · intro k t e ht
    obtain ⟨e', ue, h1, h2, h3⟩ := h.edgePtr ⟨k, e⟩ (t.first e) (t.second e)
      (by simp [Mesh.edge, ht, Tet.edge])
    simp only [Mesh.undirEdge, ht, Option.map_some, Option.some.injEq] at h1
    subst h1
    exact ⟨ue, h2, by rw [h3, min_max_sorted2]; rfl⟩
  · intro e ue he
    obtain ⟨w, hw⟩ := h.edgeUsed e ue he
    simp only [Mesh.undirEdge, Option.map_eq_some_iff] at hw
    obtain ⟨t, h1, h2⟩ := hw
    exact ⟨w.tet, t, w.edge, h1, h2⟩
  · intro k t e k' t' e' ht ht' he
    have := h.triUnique ⟨k, e⟩ ⟨k', e'⟩ (t.tri e) (t'.tri e') (by simp [Mesh.tri, ht])
      (by simp [Mesh.tri, ht']) (.inl he)
    obtain ⟨h1, h2, h3, -⟩ := Tet.ne_of_inj (hd k t ht) e
    simp only [Walker.nfe, Walker.pfe, Walker.mk.injEq] at this
    rcases this with this | ⟨rfl, rfl⟩ | ⟨rfl, rfl⟩
    · exact this
    · rw [ht] at ht'
      cases ht'
      rw [t.tri_nfe] at he
      simp only [Tet.tri, Prod.mk.injEq] at he
      exact absurd he.1.symm h1
    · rw [ht] at ht'
      cases ht'
      rw [t.tri_pfe] at he
      simp only [Tet.tri, Prod.mk.injEq] at he
      exact absurd he.1 h3
  · intro k t e k' t' e' ht ht' he
    rw [← sameRing_iff]
    exact h.oneRing _ _ (t.edge e) (by simp [Mesh.edge, ht]) (by simp [Mesh.edge, ht', he])
  · intro k t t' e ht ht'
    have := h.locks ⟨k, e⟩ (t.adj e) (by simp [Mesh.toAdj, ht])
    simpa [Mesh.triLocked, ht, ht'] using this
  · intro htr s w hw
    obtain ⟨t, h1, h2⟩ := h.triMapSound htr s w hw
    simp only [Mesh.tri, Option.map_eq_some_iff] at h1
    obtain ⟨t', h1, rfl⟩ := h1
    exact ⟨t', h1, h2⟩
  · intro htr k t e ht
    exact h.triMapComplete htr ⟨k, e⟩ (t.tri e) (by simp [Mesh.tri, ht])

theorem ConsistentT.toSpec {m : Mesh P V T} (h : ConsistentT m) : Consistent m := by
  refine ⟨h.stored, ?_, ?_, ?_, ?_, ?_, h.eunique, ?_, ?_, ?_, ?_, ?_, ?_⟩
  · rintro ⟨k, e⟩ hw
    obtain ⟨t, ht⟩ := Option.isSome_iff_exists.1 hw
    simp only at ht
    obtain ⟨t', h1, h2, h3⟩ := h.adj k t e ht
    exact ⟨t.adj e, t.first e, t.second e, t.third e, by simp [Mesh.toAdj, ht],
      by simp [Mesh.toAdj, h1, h2], by simp [Mesh.tri, ht, Tet.tri], by simp [Mesh.tri, h1, h3]⟩
  · rintro ⟨k, e⟩ a b c d hw
    simp only [Mesh.tet4, Option.map_eq_some_iff] at hw
    obtain ⟨t, ht, hw⟩ := hw
    have := (t.inj_iff_nodup e).1 (h.distinct k t ht)
    simp only [Tet.tet, Prod.mk.injEq] at hw
    rw [hw.1, hw.2.1, hw.2.2.1, hw.2.2.2] at this
    exact this
  · intro v x hx
    rcases h.vref v x hx with h1 | ⟨t, h1, h2⟩
    · exact .inl h1
    · exact .inr (by simp [Mesh.first, h1, h2])
  · rintro ⟨k, e⟩ v hv
    simp only [Mesh.first, Option.map_eq_some_iff] at hv
    obtain ⟨t, ht, rfl⟩ := hv
    rcases h.vlive k t (firstIdx e) ht with h1 | ⟨x, t', h1, h2, h3⟩
    · exact .inl h1
    · exact .inr ⟨x, h1, by simp [Mesh.first, h2, h3]; rfl⟩
  · rintro ⟨k, e⟩ a b hw
    simp only [Mesh.edge, Option.map_eq_some_iff] at hw
    obtain ⟨t, ht, hw⟩ := hw
    obtain ⟨ue, h1, h2⟩ := h.eptr k t e ht
    exact ⟨_, ue, by simp only [Mesh.undirEdge, ht, Option.map_some], h1,
      by rw [h2, hw, min_max_sorted2]⟩
  · intro e ue he
    obtain ⟨k, t, i, h1, h2⟩ := h.eused e ue he
    exact ⟨⟨k, i⟩, by simp [Mesh.undirEdge, h1, h2]⟩
  · rintro ⟨k, e⟩ ⟨k', e'⟩ s s' hs hs' hr
    simp only [Mesh.tri, Option.map_eq_some_iff] at hs hs'
    obtain ⟨t, ht, rfl⟩ := hs
    obtain ⟨t', ht', rfl⟩ := hs'
    rcases hr with hr | hr | hr
    · obtain ⟨rfl, rfl⟩ := h.tunique k t e k' t' e' ht ht' hr
      exact .inl rfl
    · obtain ⟨rfl, rfl⟩ := h.tunique k t (nfe e) k' t' e' ht ht' (by rw [hr, t.tri_nfe]; rfl)
      exact .inr (.inl rfl)
    · obtain ⟨rfl, rfl⟩ := h.tunique k t (pfe e) k' t' e' ht ht' (by rw [hr, t.tri_pfe]; rfl)
      exact .inr (.inr rfl)
  · rintro ⟨k, e⟩ ⟨k', e'⟩ x hx hx'
    simp only [Mesh.edge, Option.map_eq_some_iff] at hx hx'
    obtain ⟨t, ht, rfl⟩ := hx
    obtain ⟨t', ht', hx'⟩ := hx'
    rw [sameRing_iff]
    exact h.ring k t e k' t' e' ht ht' hx'
  · rintro ⟨k, e⟩ w' hw
    simp only [Mesh.toAdj, Option.map_eq_some_iff] at hw
    obtain ⟨t, ht, rfl⟩ := hw
    obtain ⟨t', ht', -⟩ := h.adj k t e ht
    simp [Mesh.triLocked, ht, ht', h.locks k t t' e ht ht']
  · intro htr s w hw
    obtain ⟨t, h1, h2⟩ := h.tsound htr s w hw
    exact ⟨_, by simp only [Mesh.tri, h1, Option.map_some], h2⟩
  · rintro htr ⟨k, e⟩ s hs
    simp only [Mesh.tri, Option.map_eq_some_iff] at hs
    obtain ⟨t, ht, rfl⟩ := hs
    exact h.tcomplete htr k t e ht

/-- A replacement of tets together with the bookkeeping of vertices, edges and the triangle
index. -/
structure MeshSurgery (m m' : Mesh P V T) (C N : List TId) (A : TId → Fin 4 → TId × Code) :
    Prop where
  sur : Surgery m.tets.get m'.tets.get C N A
  stored : m'.vertices.WF ∧ m'.edges.WF ∧ m'.tets.WF
  distinct : ∀ k ∈ N, ∀ t, m'.tets.get k = some t → Function.Injective t.vertices
  /-- every vertex keeps its reference or refers to a new tet -/
  vref : ∀ v x', m'.vertices.get v = some x' →
    (x'.tet.tet ∈ N ∧ ∃ t, m'.tets.get x'.tet.tet = some t ∧ t.first x'.tet.edge = v) ∨
    (∃ x, m.vertices.get v = some x ∧ x'.tet = x.tet ∧
      ∀ k ∈ C, ∀ t i, m.tets.get k = some t → t.vertices i ≠ v)
  vkeep : ∀ v x, m.vertices.get v = some x → ∃ x', m'.vertices.get v = some x'
  vnew : ∀ k ∈ N, ∀ t i, m'.tets.get k = some t → t.vertices i = GHOST ∨
    ∃ x t', m'.vertices.get (t.vertices i) = some x ∧ m'.tets.get x.tet.tet = some t' ∧
      t'.first x.tet.edge = t.vertices i
  ekeep : ∀ k t i ue, k ∉ C → m.tets.get k = some t → m.edges.get (t.edges i) = some ue →
    ∃ ue', m'.edges.get (t.edges i) = some ue' ∧ ue'.vertices = ue.vertices
  enew : ∀ k t e, k ∈ N → m'.tets.get k = some t →
    ∃ ue, m'.edges.get (t.undirEdge e) = some ue ∧ ue.vertices = sorted2 (t.edge e)
  eunique : ∀ e e' ue ue', m'.edges.get e = some ue → m'.edges.get e' = some ue' →
    ue.vertices = ue'.vertices → e = e'
  eused : ∀ e ue, m'.edges.get e = some ue → ∃ k t i, m'.tets.get k = some t ∧ t.undirEdge i = e
  tin : ∀ k t e k' t' e', k ∈ N → k' ∈ N → m'.tets.get k = some t → m'.tets.get k' = some t' →
      t'.tri e' = t.tri e → k' = k ∧ e' = e
  tout : ∀ (y : Walker) t k u e, y.tet ∈ N → m'.tets.get y.tet = some t → (t.adj y.edge).tet ∈ N →
      m.tets.get k = some u → k ∉ C → u.tri e ≠ t.tri y.edge
  rin : ∀ k t e k' t' e', k ∈ N → k' ∈ N → m'.tets.get k = some t → m'.tets.get k' = some t' →
      t'.edge e' = t.edge e → RingT m'.tets.get ⟨k, e⟩ ⟨k', e'⟩
  rnew : ∀ k t e, k ∈ N → m'.tets.get k = some t →
      (∃ k0 t0 e0, k0 ∈ C ∧ m.tets.get k0 = some t0 ∧ t0.edge e0 = t.edge e) ∨
      (∀ k0 t0 e0, m.tets.get k0 = some t0 → t0.edge e0 ≠ t.edge e)
  rold : ∀ k t e, k ∈ C → m.tets.get k = some t →
      (∃ k' t' e', k' ∈ N ∧ m'.tets.get k' = some t' ∧ t'.edge e' = t.edge e) ∨
      (∀ k' t' e', m'.tets.get k' = some t' → t'.edge e' ≠ t.edge e)
  lout : ∀ x t t', x.tet ∈ C → m.tets.get x.tet = some t → (t.adj x.edge).tet ∉ C →
      m'.tets.get (moved A x).tet = some t' →
      t'.flags.locked (face (moved A x).edge) = t.flags.locked (face x.edge)
  lin : ∀ (y : Walker) t t', y.tet ∈ N → m'.tets.get y.tet = some t → (t.adj y.edge).tet ∈ N →
      m'.tets.get (t.adj y.edge).tet = some t' →
      t'.flags.locked (face (t.adj y.edge).edge) = t.flags.locked (face y.edge)
  track : m'.trackTriMap = m.trackTriMap
  msound : m.trackTriMap = true → ∀ s w, m'.triMap s = some w →
    (∃ t, m'.tets.get w.tet = some t ∧ triKey (t.tri w.edge) = s) ∨
    (m.triMap s = some w ∧ ∀ k ∈ C, ∀ t e, m.tets.get k = some t → triKey (t.tri e) ≠ s)
  mnew : m.trackTriMap = true → ∀ k ∈ N, ∀ t e, m'.tets.get k = some t →
    ∃ w, m'.triMap (triKey (t.tri e)) = some w
  mkeep : m.trackTriMap = true → ∀ s w, m.triMap s = some w →
    (∀ k ∈ C, ∀ t e, m.tets.get k = some t → triKey (t.tri e) ≠ s) → ∃ w', m'.triMap s = some w'

theorem MeshSurgery.consistent {m m' : Mesh P V T} {C N A} (h : MeshSurgery m m' C N A)
    (hm : ConsistentT m) : ConsistentT m' := by
  have hs := h.sur
  have keepFirst : ∀ (w : Walker) v, (∀ k ∈ C, ∀ t i, m.tets.get k = some t → t.vertices i ≠ v) →
      (∃ t, m.tets.get w.tet = some t ∧ t.first w.edge = v) →
      ∃ t, m'.tets.get w.tet = some t ∧ t.first w.edge = v := by
    rintro w v hC ⟨t, h1, h2⟩
    have hk : w.tet ∉ C := fun hk => hC _ hk t (firstIdx w.edge) h1 h2
    exact ⟨_, (hs.new hk h1).2, h2⟩
  have hvref : ∀ v x, m'.vertices.get v = some x → x.tet.tet = idMax ∨
      ∃ t, m'.tets.get x.tet.tet = some t ∧ t.first x.tet.edge = v := by
    intro v x' hx'
    rcases h.vref v x' hx' with ⟨-, h1⟩ | ⟨x, h1, h2, h3⟩
    · exact .inr h1
    · rw [h2]
      rcases hm.vref v x h1 with h4 | h4
      · exact .inl h4
      · exact .inr (keepFirst x.tet v h3 h4)
  refine ⟨h.stored, hs.adjT hm.adj, hs.distinctT hm.distinct h.distinct, hvref, ?_, ?_, h.eunique,
    h.eused, hs.triUniqueT hm.tunique h.tin h.tout, hs.oneRingT hm.adj hm.ring h.rin h.rnew h.rold,
    hs.locksT hm.adj hm.locks h.lout h.lin, ?_, ?_⟩
  · intro k t' i ht'
    by_cases hk : k ∈ N
    · exact h.vnew k hk t' i ht'
    · obtain ⟨hC, t, ht, rfl⟩ := hs.old hk ht'
      rcases hm.vlive k t i ht with h1 | ⟨x, t2, h1, h2, h3⟩
      · exact .inl h1
      · right
        obtain ⟨x', hx'⟩ := h.vkeep _ _ h1
        rcases h.vref _ x' hx' with ⟨-, t3, h4, h5⟩ | ⟨x0, h4, h5, h6⟩
        · exact ⟨x', t3, hx', h4, h5⟩
        · rw [h1] at h4
          cases h4
          obtain ⟨t3, h7, h8⟩ := keepFirst x.tet _ h6 ⟨t2, h2, h3⟩
          exact ⟨x', t3, hx', by rw [h5]; exact h7, by rw [h5]; exact h8⟩
  · intro k t' e ht'
    by_cases hk : k ∈ N
    · exact h.enew k t' e hk ht'
    · obtain ⟨hC, t, ht, rfl⟩ := hs.old hk ht'
      obtain ⟨ue, h1, h2⟩ := hm.eptr k t e ht
      obtain ⟨ue', h3, h4⟩ := h.ekeep k t (undirIdx e) ue hC ht h1
      exact ⟨ue', h3, h4.trans h2⟩
  · intro htr s w hw
    rw [h.track] at htr
    rcases h.msound htr s w hw with h1 | ⟨h1, h2⟩
    · exact h1
    · obtain ⟨t, h3, h4⟩ := hm.tsound htr s w h1
      have hk : w.tet ∉ C := fun hk => h2 _ hk t w.edge h3 h4
      exact ⟨_, (hs.new hk h3).2, h4⟩
  · intro htr k t' e ht'
    rw [h.track] at htr
    by_cases hk : k ∈ N
    · exact h.mnew htr k hk t' e ht'
    · obtain ⟨hC, t, ht, rfl⟩ := hs.old hk ht'
      obtain ⟨w, hw⟩ := hm.tcomplete htr k t e ht
      refine h.mkeep htr _ w hw ?_
      intro k2 hk2 t2 e2 ht2 hkey
      have hd := Tet.ne_of_inj (hm.distinct k2 t2 ht2) e2
      have hd' := Tet.ne_of_inj (hm.distinct k t ht) e
      have hr : Rotation (t2.tri e2) (t.tri e) :=
        Rotation.trans (triKey_rotation _) (hkey ▸ Rotation.symm (triKey_rotation (t.tri e)))
      have : k = k2 := by
        rcases hr with hr | hr | hr
        · exact (hm.tunique k2 t2 e2 k t e ht2 ht hr).1
        · exact (hm.tunique k2 t2 (nfe e2) k t e ht2 ht (by rw [hr, t2.tri_nfe]; rfl)).1
        · exact (hm.tunique k2 t2 (pfe e2) k t e ht2 ht (by rw [hr, t2.tri_pfe]; rfl)).1
      exact hC (this ▸ hk2)

end Tet
