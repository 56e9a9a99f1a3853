import Verif.Proofs.New
import Verif.Proofs.Flip44
import Verif.Proofs.IdMapHistory

/-!
# Facts about whole meshes: new meshes, tracking, neighbours
-/

namespace Tet
open Spec IdMapSpec
variable {P V T : Type}

theorem IdMap.size_of_keys {α : Type} {m : IdMap α} (hm : m.WF) (l : List Nat) (hl : l.Nodup)
    (h : ∀ j, j ∈ l ↔ (m.get j).isSome) : m.size = l.length := by
  rw [← length_keys hm]
  apply List.Perm.length_eq
  rw [List.perm_ext_iff_of_nodup _ hl]
  · intro j
    rw [h, IdMap.keys, List.mem_map]
    constructor
    · rintro ⟨⟨k, v⟩, h1, rfl⟩
      rw [mem_iter] at h1
      simp [h1]
    · intro h1
      obtain ⟨v, hv⟩ := Option.isSome_iff_exists.1 h1
      exact ⟨(j, v), mem_iter.2 hv, rfl⟩
  · rw [keys_eq]
    exact List.Nodup.filter _ List.nodup_range

theorem IdMap.mem_keys {α : Type} {m : IdMap α} {j : Nat} : j ∈ m.keys ↔ (m.get j).isSome := by
  rw [IdMap.keys, List.mem_map]
  constructor
  · rintro ⟨⟨k, v⟩, h1, rfl⟩
    rw [mem_iter] at h1
    simp [h1]
  · intro h1
    obtain ⟨v, hv⟩ := Option.isSome_iff_exists.1 h1
    exact ⟨(j, v), mem_iter.2 hv, rfl⟩

/-! ## Crossing triangles -/

theorem Mesh.toAdj_nfe (m : Mesh P V T) (w : Walker) : m.toAdj w.nfe = (m.toAdj w).map Walker.pfe := by
  simp only [Mesh.toAdj, Walker.nfe]
  cases h : m.tets.get w.tet with
  | none => rfl
  | some t => simp only [Option.map_some, Tet.adj_nfe]

theorem Mesh.toAdj_pfe (m : Mesh P V T) (w : Walker) : m.toAdj w.pfe = (m.toAdj w).map Walker.nfe := by
  simp only [Mesh.toAdj, Walker.pfe]
  cases h : m.tets.get w.tet with
  | none => rfl
  | some t => simp only [Option.map_some, Tet.adj_pfe]

/-! ## Tracking -/

/-- Turning on tracking. -/
theorem ConsistentT.setTrack {m : Mesh P V T} (hm : ConsistentT m) :
    ∃ tm, m.setTrackTriMap true = some { m with trackTriMap := true, triMap := tm } ∧
      ConsistentT { m with trackTriMap := true, triMap := tm } := by
  have hk : ∀ k ∈ m.tets.keys, ∃ t, m.tets.get k = some t := by
    intro k hk
    exact Option.isSome_iff_exists.1 (IdMap.mem_keys.1 hk)
  obtain ⟨tm, h1, h2, h3⟩ := Mesh.triInsert_foldlM m.tets.keys
    { m with trackTriMap := true, triMap := fun _ => none } hk
  have key : ∀ k t e, m.tets.get k = some t → ∃ w t', m.tets.get w.tet = some t' ∧
      triKey (t'.tri w.edge) = triKey (t.tri e) ∧ tm (triKey (t.tri e)) = some w := by
    intro k t e ht
    obtain ⟨w, t', -, h4, h5, h6⟩ := h2 (triKey (t.tri e))
      ⟨k, t, IdMap.mem_keys.2 (by simp [ht]), ht, (hasKey_iff_tri (hm.distinct k t ht) _).2 ⟨e, rfl⟩⟩
    exact ⟨w, t', h4, h5, h6⟩
  refine ⟨tm, h1, ⟨hm.stored, hm.adj, hm.distinct, hm.vref, hm.vlive, hm.eptr, hm.eunique, hm.eused,
    hm.tunique, hm.ring, hm.locks, ?_, ?_⟩⟩
  · intro _ s w hw
    change tm s = some w at hw
    change ∃ t, m.tets.get w.tet = some t ∧ _
    by_cases hs : ∃ k t, k ∈ m.tets.keys ∧ m.tets.get k = some t ∧ HasKey t s
    · obtain ⟨w', t, -, h4, h5, h6⟩ := h2 s hs
      rw [hw] at h6
      cases h6
      exact ⟨t, h4, h5⟩
    · have h4 := h3 s fun k t a b c => hs ⟨k, t, a, b, c⟩
      rw [hw] at h4
      cases h4
  · intro _ k t e ht
    obtain ⟨w, t', -, -, h⟩ := key k t e ht
    exact ⟨w, h⟩

/-! ## New meshes -/

theorem tet4_new (vi : Fin 5 → VId) (ei) (dt : T) (j : Fin 5) (m : Mesh P V T)
    (h : m.tets.get j.val = some (newTet vi ei dt j)) : m.tet4 ⟨j.val, 3⟩ =
      some (vi (newVertices j 0), vi (newVertices j 1), vi (newVertices j 2), vi (newVertices j 3)) :=
  tet4_at h

/-- Everything about a mesh with five tets. -/
theorem IsNew.facts {m : Mesh P V T} {vi : Fin 5 → VId} {dt : T} (h : IsNew m vi dt) :
    m.tets.size = 5 ∧ m.edges.size = 10 ∧
    m.tet4 ⟨0, 3⟩ = some (vi 0, vi 1, vi 2, vi 3) ∧
    m.tet4 ⟨1, 3⟩ = some (vi 1, vi 2, vi 3, GHOST) ∧
    m.tet4 ⟨2, 3⟩ = some (vi 0, vi 3, vi 2, GHOST) ∧
    m.tet4 ⟨3, 3⟩ = some (vi 3, vi 0, vi 1, GHOST) ∧
    m.tet4 ⟨4, 3⟩ = some (vi 2, vi 1, vi 0, GHOST) ∧
    ∀ q, HasTet m q ↔ ∃ p ∈ [(vi 0, vi 1, vi 2, vi 3), (vi 1, vi 2, vi 3, GHOST),
      (vi 0, vi 3, vi 2, GHOST), (vi 3, vi 0, vi 1, GHOST), (vi 2, vi 1, vi 0, GHOST)], SameTet p q := by
  have t := fun j => tet4_new vi _ dt j m (h.getN j)
  have t0 := t 0
  have t1 := t 1
  have t2 := t 2
  have t3 := t 3
  have t4 := t 4
  have g := h.ghost
  have e0 : ∀ j, (⟨(j : Fin 5).val, 3⟩ : Walker) = ⟨j.val, 3⟩ := fun _ => rfl
  have n1 : m.tet4 ⟨0, 3⟩ = some (vi 0, vi 1, vi 2, vi 3) := t0
  have n2 : m.tet4 ⟨1, 3⟩ = some (vi 1, vi 2, vi 3, GHOST) := t1.trans (by rw [← g]; rfl)
  have n3 : m.tet4 ⟨2, 3⟩ = some (vi 0, vi 3, vi 2, GHOST) := t2.trans (by rw [← g]; rfl)
  have n4 : m.tet4 ⟨3, 3⟩ = some (vi 3, vi 0, vi 1, GHOST) := t3.trans (by rw [← g]; rfl)
  have n5 : m.tet4 ⟨4, 3⟩ = some (vi 2, vi 1, vi 0, GHOST) := t4.trans (by rw [← g]; rfl)
  refine ⟨?_, ?_, n1, n2, n3, n4, n5, ?_⟩
  · rw [h.tets]; rfl
  · rw [h.edges]; rfl
  · intro q
    constructor
    · rintro ⟨w, hw⟩
      obtain ⟨u, hu, hq⟩ := Mesh.tet4_iff.1 hw
      obtain ⟨j, hj, -⟩ := h.ofT hu
      have hr := u.rearr_tet w.edge
      rw [hq] at hr
      have key : ∀ p, m.tet4 ⟨w.tet, 3⟩ = some p → SameTet p q := by
        intro p hp
        obtain ⟨u', hu', hp'⟩ := Mesh.tet4_iff.1 hp
        simp only at hu'
        rw [hu] at hu'
        cases hu'
        have := u.rearr_tet 3
        simp only at hp'
        rw [hp'] at this
        exact EvenRearr.trans (EvenRearr.symm this) hr
      rw [hj] at key
      fin_cases j
      · exact ⟨_, by simp, key _ n1⟩
      · exact ⟨_, by simp, key _ n2⟩
      · exact ⟨_, by simp, key _ n3⟩
      · exact ⟨_, by simp, key _ n4⟩
      · exact ⟨_, by simp, key _ n5⟩
    · rintro ⟨p, hp, hs⟩
      refine HasTet.same ?_ hs
      simp only [List.mem_cons, List.not_mem_nil, or_false] at hp
      rcases hp with rfl | rfl | rfl | rfl | rfl
      exacts [⟨_, n1⟩, ⟨_, n2⟩, ⟨_, n3⟩, ⟨_, n4⟩, ⟨_, n5⟩]

/-! ## Neighbours -/

theorem count4 {α : Type} [DecidableEq α] (f : Fin 4 → α) (u : α) :
    [f 0, f 1, f 2, f 3].count u = (Finset.univ.filter fun i => f i = u).card := by
  have : [f 0, f 1, f 2, f 3] = List.ofFn f := by simp [List.ofFn_succ]
  rw [this, List.ofFn_eq_map, List.count_eq_countP, List.countP_map, List.countP_eq_length_filter]
  rw [← List.toFinset_card_of_nodup (List.Nodup.filter _ (List.nodup_finRange 4))]
  congr 1
  ext i
  simp

theorem ConsistentT.opp_back {m : Mesh P V T} (hm : ConsistentT m) {k t} (h : m.tets.get k = some t)
    (f : Fin 4) : ∃ u, m.tets.get (t.opp f).tet = some u ∧
      (u.opp (face (t.opp f).edge)).tet = k ∧ face (u.opp (face (t.opp f).edge)).edge = f := by
  obtain ⟨u, h1, h2, -⟩ := hm.adj k t (canonCode f) h
  have e : (t.adj (canonCode f)).tet = (t.opp f).tet := by rw [Tet.adj_tet, face_canonCode]
  have e' : face (t.adj (canonCode f)).edge = face (t.opp f).edge := by
    rw [Tet.face_adj, face_canonCode]
  rw [e] at h1
  refine ⟨u, h1, ?_, ?_⟩
  · have := u.adj_tet (t.adj (canonCode f)).edge
    rw [h2, e'] at this
    exact this.symm
  · have := u.face_adj (t.adj (canonCode f)).edge
    rw [h2, e'] at this
    rw [← this]
    exact face_canonCode f

theorem ConsistentT.nbr_le {m : Mesh P V T} (hm : ConsistentT m) {k u t s}
    (h : m.tets.get k = some t) (h' : m.tets.get u = some s) :
    (Finset.univ.filter fun i => (t.opp i).tet = u).card ≤
      (Finset.univ.filter fun i => (s.opp i).tet = k).card := by
  apply Finset.card_le_card_of_injOn (fun f => face (t.opp f).edge)
  · intro f hf
    simp only [Finset.coe_filter, Finset.mem_univ, true_and, Set.mem_setOf_eq] at hf ⊢
    obtain ⟨s', h1, h2, -⟩ := hm.opp_back h f
    rw [hf, h'] at h1
    cases h1
    exact h2
  · intro f hf g hg hfg
    simp only [Finset.coe_filter, Finset.mem_univ, true_and, Set.mem_setOf_eq] at hf hg hfg
    obtain ⟨s', h1, -, h3⟩ := hm.opp_back h f
    rw [hf, h'] at h1
    cases h1
    obtain ⟨s', h1, -, h4⟩ := hm.opp_back h g
    rw [hg, h'] at h1
    cases h1
    rw [← h3, ← h4, hfg]

/-! ## A vertex that is not in a tet -/

theorem ConsistentT.addVertex {m : Mesh P V T} (hm : ConsistentT m) {p : P} {x : V} {vs v}
    (h : m.vertices.insert (Vertex.new invalidWalker p x) = some (vs, v)) :
    ConsistentT { m with vertices := vs } ∧ vs.get v = some (Vertex.new invalidWalker p x) ∧
      ∀ w, m.first w ≠ some v := by
  obtain ⟨h1, h2, h3, h4, -⟩ := IdMap.insert_some hm.stored.1 h
  refine ⟨⟨⟨h1, hm.stored.2⟩, hm.adj, hm.distinct, ?_, ?_, hm.eptr, hm.eunique, hm.eused,
    hm.tunique, hm.ring, hm.locks, hm.tsound, hm.tcomplete⟩, by rw [h4, if_pos rfl], ?_⟩
  · intro u y hy
    change vs.get u = some y at hy
    rw [h4] at hy
    split_ifs at hy with he
    · cases hy
      exact .inl rfl
    · exact hm.vref u y hy
  · intro k t i ht
    rcases hm.vlive k t i ht with h5 | ⟨y, t', h5, h6⟩
    · exact .inl h5
    · refine .inr ⟨y, t', ?_, h6⟩
      show vs.get _ = _
      rw [h4, if_neg, h5]
      intro he
      rw [he, h2] at h5
      cases h5
  · intro w hw
    simp only [Mesh.first, Option.map_eq_some_iff] at hw
    obtain ⟨t, ht, hf⟩ := hw
    rcases hm.vlive _ t (firstIdx w.edge) ht with h5 | ⟨y, t', h5, -⟩
    · rw [← hf, Tet.first, h5] at h3
      exact absurd h3 (lt_irrefl _)
    · rw [Tet.first] at hf
      rw [hf, h2] at h5
      cases h5

/-! ## Edges after inserting or removing one -/

theorem hasEdge_insert {m m' : Mesh P V T} {eid d e} (hfree : m.edges.get eid = none)
    (h : ∀ i, m'.edges.get i = if i = eid then some (UEdge.new (d, e)) else m.edges.get i) (u u' : VId) :
    HasEdge m' u u' ↔ HasEdge m u u' ∨ (u, u') = (d, e) ∨ (u, u') = (e, d) := by
  rw [hasEdge_iff, hasEdge_iff]
  constructor
  · rintro ⟨i, ue, h1, h2⟩
    rw [h] at h1
    split_ifs at h1 with hi
    · cases h1
      exact .inr ((sorted2_eq_iff _ _).1 h2)
    · exact .inl ⟨i, ue, h1, h2⟩
  · rintro (⟨i, ue, h1, h2⟩ | h2)
    · refine ⟨i, ue, ?_, h2⟩
      rw [h, if_neg, h1]
      rintro rfl
      rw [hfree] at h1
      cases h1
    · refine ⟨eid, _, (h eid).trans (if_pos rfl), (sorted2_eq_iff _ _).2 h2⟩

theorem hasEdge_remove {m m' : Mesh P V T} (hun : ∀ e e' ue ue', m.edges.get e = some ue →
    m.edges.get e' = some ue' → ue.vertices = ue'.vertices → e = e') {e0 ue0 x y}
    (h0 : m.edges.get e0 = some ue0) (h0' : ue0.vertices = sorted2 (x, y))
    (h : ∀ i, m'.edges.get i = if i = e0 then none else m.edges.get i) (u u' : VId) :
    HasEdge m' u u' ↔ HasEdge m u u' ∧ (u, u') ≠ (x, y) ∧ (u, u') ≠ (y, x) := by
  rw [hasEdge_iff, hasEdge_iff, ← not_or]
  have key : ((u, u') = (x, y) ∨ (u, u') = (y, x)) ↔ sorted2 (x, y) = sorted2 (u, u') :=
    (sorted2_eq_iff (x, y) (u, u')).symm
  rw [key]
  constructor
  · rintro ⟨i, ue, h1, h2⟩
    rw [h] at h1
    split_ifs at h1 with hi
    refine ⟨⟨i, ue, h1, h2⟩, fun h3 => hi (hun _ _ _ _ h1 h0 ?_)⟩
    rw [h2, h0', h3]
  · rintro ⟨⟨i, ue, h1, h2⟩, h3⟩
    refine ⟨i, ue, ?_, h2⟩
    rw [h, if_neg, h1]
    rintro rfl
    rw [h0] at h1
    cases h1
    exact h3 (h0'.symm.trans h2)

end Tet
