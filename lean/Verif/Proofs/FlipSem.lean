import Verif.Spec.Flips
import Verif.Proofs.New

/-!
# What the flips do, in terms of vertices
-/

namespace Tet
open Spec
variable {P V T : Type}

/-! ## Reading meshes -/

theorem Mesh.tet4_iff {m : Mesh P V T} {w : Walker} {q : V4} :
    m.tet4 w = some q ↔ ∃ t, m.tets.get w.tet = some t ∧ t.tet w.edge = q := by
  simp only [Mesh.tet4, Option.map_eq_some_iff]

theorem Mesh.tri_iff {m : Mesh P V T} {w : Walker} {q : V3} :
    m.tri w = some q ↔ ∃ t, m.tets.get w.tet = some t ∧ t.tri w.edge = q := by
  simp only [Mesh.tri, Option.map_eq_some_iff]

theorem Mesh.triLocked_iff {m : Mesh P V T} {w : Walker} {l : Bool} :
    m.triLocked w = some l ↔ ∃ t, m.tets.get w.tet = some t ∧ t.flags.locked (face w.edge) = l := by
  simp only [Mesh.triLocked, Option.map_eq_some_iff]

theorem hasTet_iff {m : Mesh P V T} {q : V4} :
    HasTet m q ↔ ∃ k t, m.tets.get k = some t ∧ EvenRearr t.vertices (quad q) := by
  constructor
  · rintro ⟨w, hw⟩
    obtain ⟨t, ht, rfl⟩ := Mesh.tet4_iff.1 hw
    exact ⟨_, t, ht, (evenRearr_iff _ _).2 ⟨w.edge, t.quad_tet w.edge⟩⟩
  · rintro ⟨k, t, ht, hr⟩
    obtain ⟨e, he⟩ := (evenRearr_iff _ _).1 hr
    refine ⟨⟨k, e⟩, Mesh.tet4_iff.2 ⟨t, ht, quad_inj fun j => ?_⟩⟩
    rw [Tet.quad_tet, he]

theorem Tet.rearr_tet (t : Tet T) (e : Code) : EvenRearr t.vertices (quad (t.tet e)) :=
  (evenRearr_iff _ _).2 ⟨e, t.quad_tet e⟩

/-- Even rearrangements of the vertices show the same triangles. -/
theorem Tet.tri_of_rearr {t t' : Tet T} (h : EvenRearr t.vertices t'.vertices) (e : Code) :
    ∃ e', t'.tri e' = t.tri e := by
  obtain ⟨c, hc⟩ := (evenRearr_iff _ _).1 h
  refine ⟨permInv c e, ?_⟩
  simp only [Tet.tri_eq, ptri, hc, ← perms_toPerm, toPerm_permInv]

/-- In a consistent mesh a tet is determined by its vertices. -/
theorem ConsistentT.tet_unique {m : Mesh P V T} (hm : ConsistentT m) {k k' t t'}
    (h : m.tets.get k = some t) (h' : m.tets.get k' = some t') {q : Fin 4 → VId}
    (hr : EvenRearr t.vertices q) (hr' : EvenRearr t'.vertices q) : k' = k := by
  obtain ⟨e', he'⟩ := Tet.tri_of_rearr (EvenRearr.trans hr (EvenRearr.symm hr')) 3
  exact (hm.tunique k t 3 k' t' e' h h' he').1

theorem MeshSurgery.hasTet {m m' : Mesh P V T} {C N A} (h : MeshSurgery m m' C N A)
    (hm : ConsistentT m) (q : V4) : HasTet m' q ↔
      (HasTet m q ∧ ∀ k ∈ C, ∀ t, m.tets.get k = some t → ¬ EvenRearr t.vertices (quad q)) ∨
      ∃ k ∈ N, ∃ t, m'.tets.get k = some t ∧ EvenRearr t.vertices (quad q) := by
  constructor
  · intro hq
    obtain ⟨k, t, ht, hr⟩ := hasTet_iff.1 hq
    by_cases hN : k ∈ N
    · exact .inr ⟨k, hN, t, ht, hr⟩
    · left
      obtain ⟨hC, t0, ht0, rfl⟩ := h.sur.old hN ht
      refine ⟨hasTet_iff.2 ⟨k, t0, ht0, hr⟩, ?_⟩
      intro k' hk' t' ht' hr'
      have := hm.tet_unique ht0 ht' hr hr'
      exact hC (this ▸ hk')
  · rintro (⟨hq, hno⟩ | ⟨k, hk, t, ht, hr⟩)
    · obtain ⟨k, t, ht, hr⟩ := hasTet_iff.1 hq
      have hC : k ∉ C := fun hk => hno k hk t ht hr
      have hN : k ∉ N := by
        intro hN
        rw [h.sur.fresh k hN hC] at ht
        cases ht
      refine hasTet_iff.2 ⟨k, patch C A t, ?_, hr⟩
      rw [h.sur.out k hC hN, ht]
      rfl
    · exact hasTet_iff.2 ⟨k, t, ht, hr⟩

theorem MeshSurgery.replaces {m m' : Mesh P V T} {C N A} (h : MeshSurgery m m' C N A)
    (hm : ConsistentT m) (old new : List V4)
    (hC : ∀ k, k ∈ C → ∃ p ∈ old, ∃ t, m.tets.get k = some t ∧ EvenRearr t.vertices (quad p))
    (hC' : ∀ p ∈ old, ∃ k ∈ C, ∃ t, m.tets.get k = some t ∧ EvenRearr t.vertices (quad p))
    (hN : ∀ k, k ∈ N → ∃ p ∈ new, ∃ t, m'.tets.get k = some t ∧ EvenRearr t.vertices (quad p))
    (hN' : ∀ p ∈ new, ∃ k ∈ N, ∃ t, m'.tets.get k = some t ∧ EvenRearr t.vertices (quad p)) :
    Replaces m m' old new := by
  refine ⟨fun p hp => ?_, fun q => ?_⟩
  · obtain ⟨k, -, t, ht, hr⟩ := hC' p hp
    exact hasTet_iff.2 ⟨k, t, ht, hr⟩
  · rw [h.hasTet hm]
    apply or_congr
    · apply and_congr_right
      intro _
      constructor
      · intro hno p hp hs
        obtain ⟨k, hk, t, ht, hr⟩ := hC' p hp
        exact hno k hk t ht (EvenRearr.trans hr hs)
      · intro hno k hk t ht hr
        obtain ⟨p, hp, t', ht', hr'⟩ := hC k hk
        rw [ht] at ht'
        cases ht'
        exact hno p hp (EvenRearr.trans (EvenRearr.symm hr') hr)
    · constructor
      · rintro ⟨k, hk, t, ht, hr⟩
        obtain ⟨p, hp, t', ht', hr'⟩ := hN k hk
        rw [ht] at ht'
        cases ht'
        exact ⟨p, hp, EvenRearr.trans (EvenRearr.symm hr') hr⟩
      · rintro ⟨p, hp, hs⟩
        obtain ⟨k, hk, t, ht, hr⟩ := hN' p hp
        exact ⟨k, hk, t, ht, EvenRearr.trans hr hs⟩

/-! ## Locks -/

theorem lockedTri_iff {m : Mesh P V T} (hm : ConsistentT m) {k t e} (h : m.tets.get k = some t) :
    LockedTri m (t.tri e) ↔ t.flags.locked (face e) = true := by
  constructor
  · rintro ⟨w, hw, hl⟩
    obtain ⟨t1, h1, h2⟩ := Mesh.tri_iff.1 hw
    obtain ⟨t2, h3, h4⟩ := Mesh.triLocked_iff.1 hl
    rw [h1] at h3; cases h3
    obtain ⟨h5, h6⟩ := hm.tunique k t e _ t1 _ h h1 h2
    rw [h5, h] at h1
    cases h1
    rw [← h6, h4]
  · intro hl
    exact ⟨⟨k, e⟩, Mesh.tri_iff.2 ⟨t, h, rfl⟩, Mesh.triLocked_iff.2 ⟨t, h, hl⟩⟩

theorem MeshSurgery.locksTri {m m' : Mesh P V T} {C N A} (h : MeshSurgery m m' C N A)
    (hm : ConsistentT m)
    (hI : ∀ (y : Walker) t, y.tet ∈ N → m'.tets.get y.tet = some t → (t.adj y.edge).tet ∈ N →
      t.flags.locked (face y.edge) = false ∧
      ∀ k ∈ C, ∀ t0 e, m.tets.get k = some t0 → t0.tri e ≠ t.tri y.edge) (s : V3)
    (hs : HasTri m' s) : LockedTri m' s ↔ LockedTri m s := by
  have hm' := h.consistent hm
  obtain ⟨y, hy⟩ := hs
  obtain ⟨t, ht, rfl⟩ := Mesh.tri_iff.1 hy
  rw [lockedTri_iff hm' ht]
  by_cases hN : y.tet ∈ N
  · rcases h.sur.inner y t hN ht with ⟨x, t0, h1, h2, h3, h4⟩ | ⟨h1, -⟩
    · obtain ⟨-, t', h5, -, h6⟩ := h.sur.outer x t0 h1 h2 h3
      have h7 := h.lout x t0 t' h1 h2 h3 h5
      rw [← h4] at h5 h6 h7
      rw [ht] at h5
      cases h5
      rw [h7, h6, lockedTri_iff hm h2]
    · obtain ⟨h2, h3⟩ := hI y t hN ht h1
      rw [h2]
      refine ⟨fun he => absurd he Bool.false_ne_true, ?_⟩
      rintro ⟨w, hw, -⟩
      obtain ⟨t1, h4, h5⟩ := Mesh.tri_iff.1 hw
      by_cases hC : w.tet ∈ C
      · exact absurd h5 (h3 _ hC _ _ h4)
      · exact absurd h5 (h.tout y t w.tet t1 w.edge hN ht h1 h4 hC)
  · obtain ⟨hC, t0, ht0, rfl⟩ := h.sur.old hN ht
    rw [show (patch C A t0).tri y.edge = t0.tri y.edge from rfl, lockedTri_iff hm ht0]
    rfl

theorem Pat.Real.inner {nV nO nN : Nat} {p : Pat nV nO nN} {m m' : Mesh P V T} {C N : List TId}
    {A : TId → Fin 4 → TId × Code} {idO : Fin nO → TId} {idN : Fin nN → TId} {rot : Fin nO → Code}
    {tO : Fin nO → Tet T} {tN : Fin nN → Tet T} {L : Fin nV → VId}
    (h : Real p m m' C N A idO idN rot tO tN L) (hp : p.OK) (hm : ConsistentT m)
    (hnew : ∀ j d, p.nin j (face d) ≠ none → ∀ i c, ptri (p.old i) c ≠ ptri (p.new j) d)
    (y : Walker) (t : Tet T) (hy : y.tet ∈ N) (ht : m'.tets.get y.tet = some t)
    (ha : (t.adj y.edge).tet ∈ N) :
      t.flags.locked (face y.edge) = false ∧
      ∀ k ∈ C, ∀ t0 e, m.tets.get k = some t0 → t0.tri e ≠ t.tri y.edge := by
  obtain ⟨k, e⟩ := y
  simp only at *
  obtain ⟨j, rfl⟩ := (h.memN k).1 hy
  rw [h.getN] at ht
  cases ht
  have hn : p.nin j (face e) ≠ none := by
    intro hn
    have hs := hp.tgt_src j (face e) hn
    have h1 := h.outC _ _ hs.1
    have h2 := h.oppO j (face e) hn
    rw [Tet.adj_tet, h2] at ha
    obtain ⟨i, hi⟩ := (h.memN _).1 ha
    have h3 := h.fresh i (by rw [← hi]; exact h1)
    obtain ⟨u, hu, -⟩ := hm.adj _ _ (toPerm (rot (p.src j (face e)).1) (p.src j (face e)).2)
      (h.getO (p.src j (face e)).1)
    rw [hi, h3] at hu
    cases hu
  refine ⟨h.lockI j _ hn, ?_⟩
  intro k hk t0 e0 ht0 he
  obtain ⟨i, rfl⟩ := (h.memC k).1 hk
  rw [h.getO] at ht0
  cases ht0
  have h1 := h.triO i (permInv (rot i) e0)
  rw [toPerm_permInv, he, h.triN] at h1
  exact hnew j e hn i _ (map3_inj h.injL h1).symm

/-! ## Edges -/

theorem hasEdge_iff {m : Mesh P V T} {a b : VId} :
    HasEdge m a b ↔ ∃ e ue, m.edges.get e = some ue ∧ ue.vertices = sorted2 (a, b) := by
  simp only [HasEdge, min_max_sorted2]

/-- In a consistent mesh the edges are the edges of the tets. -/
theorem ConsistentT.hasEdge {m : Mesh P V T} (hm : ConsistentT m) (a b : VId) :
    HasEdge m a b ↔ ∃ k t e, m.tets.get k = some t ∧ t.edge e = (a, b) := by
  rw [hasEdge_iff]
  constructor
  · rintro ⟨e, ue, h1, h2⟩
    obtain ⟨k, t, i, h3, h4⟩ := hm.eused e ue h1
    obtain ⟨ue', h5, h6⟩ := hm.eptr k t i h3
    rw [h4, h1] at h5
    cases h5
    rw [h2, sorted2_eq_iff] at h6
    rcases h6 with h6 | h6
    · exact ⟨k, t, i, h3, h6⟩
    · refine ⟨k, t, twin i, h3, ?_⟩
      rw [Tet.edge_eq, pedge_twin, ← Tet.edge_eq, h6]
      rfl
  · rintro ⟨k, t, e, h1, h2⟩
    obtain ⟨ue, h3, h4⟩ := hm.eptr k t e h1
    exact ⟨_, ue, h3, h2 ▸ h4⟩

/-- Adding edges and removing edges keeps locks. -/
theorem locksEdge {m m' : Mesh P V T}
    (hun : ∀ e e' ue ue', m'.edges.get e = some ue → m'.edges.get e' = some ue' →
      ue.vertices = ue'.vertices → e = e')
    (hun0 : ∀ e e' ue ue', m.edges.get e = some ue → m.edges.get e' = some ue' →
      ue.vertices = ue'.vertices → e = e')
    (h : ∀ e ue, m'.edges.get e = some ue → m.edges.get e = some ue ∨
      (ue.locked = false ∧ ∀ e0 ue0, m.edges.get e0 = some ue0 → ue0.vertices ≠ ue.vertices))
    (a b : VId) (hab : HasEdge m' a b) : LockedEdge m' a b ↔ LockedEdge m a b := by
  obtain ⟨e, ue, h1, h2⟩ := hab
  have h3 : LockedEdge m' a b ↔ ue.locked = true := by
    constructor
    · rintro ⟨e', ue', g1, g2, g3⟩
      have := hun e e' ue ue' h1 g1 (h2.trans g2.symm)
      rw [← this, h1] at g1
      cases g1
      exact g3
    · intro hl
      exact ⟨e, ue, h1, h2, hl⟩
  rw [h3]
  rcases h e ue h1 with h4 | ⟨h4, h5⟩
  · constructor
    · intro hl
      exact ⟨e, ue, h4, h2, hl⟩
    · rintro ⟨e', ue', g1, g2, g3⟩
      have := hun0 e e' ue ue' h4 g1 (h2.trans g2.symm)
      rw [← this, h4] at g1
      cases g1
      exact g3
  · rw [h4]
    refine ⟨fun he => absurd he Bool.false_ne_true, ?_⟩
    rintro ⟨e', ue', g1, g2, g3⟩
    exact absurd (g2.trans h2.symm) (h5 _ _ g1)

/-! ## The flips -/

/-- The results common to all flips; `ids` are the tets that take part. -/
structure FlipFacts (m m' : Mesh P V T) (old new : List V4) (ids : List TId) : Prop where
  cons : ConsistentT m'
  rep : Replaces m m' old new
  locks : LocksKept m m'
  same : ∀ x : Walker, x.tet ∉ ids → m'.tet4 x = m.tet4 x
  rest : ∃ L, m' = { m with vertices := setTets m.vertices L, edges := m'.edges, tets := m'.tets, triMap := m'.triMap }

theorem Surgery.same_tet4 {m m' : Mesh P V T} {C N A} (h : Surgery m.tets.get m'.tets.get C N A)
    (x : Walker) (hC : x.tet ∉ C) (hN : x.tet ∉ N) : m'.tet4 x = m.tet4 x := by
  unfold Mesh.tet4
  rw [h.out _ hC hN, Option.map_map]
  rfl

theorem tet4_code {m : Mesh P V T} {k : TId} {x : V4} (h : m.tet4 ⟨k, 3⟩ = some x) (c : Code) :
    m.tet4 ⟨k, c⟩ = some (quad x (perms c 0), quad x (perms c 1), quad x (perms c 2), quad x (perms c 3)) := by
  have h3 : ∀ c, toPerm 3 c = c := by decide
  have := tet4_perm h c
  simp only [Walker.perm, h3] at this
  exact this

theorem tet4_at {m : Mesh P V T} {k : TId} {t : Tet T} (h : m.tets.get k = some t) :
    m.tet4 ⟨k, 3⟩ = some (t.vertices 0, t.vertices 1, t.vertices 2, t.vertices 3) := by
  simp only [Mesh.tet4, h, Option.map_some]
  rfl

theorem rearr_self (t : Tet T) : EvenRearr t.vertices (quad (t.vertices 0, t.vertices 1, t.vertices 2, t.vertices 3)) := by
  have := t.rearr_tet 3
  exact this

theorem rearr_perm {t : Tet T} {e : Code} {q : V4} (h : t.tet e = q) (c : Code) {q' : V4}
    (hq : q' = (quad q (perms c 0), quad q (perms c 1), quad q (perms c 2), quad q (perms c 3))) :
    EvenRearr t.vertices (quad q') := by
  subst h
  rw [hq, ← Tet.tet_toPerm]
  exact t.rearr_tet _

theorem flip23_sem {m : Mesh P V T} (hm : ConsistentT m) {w o : Walker} {a b c d e : VId}
    (hw : m.tet4 w = some (a, b, c, d)) (ho : m.toAdj w = some o) (hf : m.fourth o = some e)
    (hne : d ≠ e) (hno : ¬ HasEdge m d e) (roomT : m.tets.size < idMax) (roomE : m.edges.size < idMax) :
    ∃ m' id2, m.flip23Unchecked w = some (m', [⟨w.tet, 2⟩, ⟨o.tet, 2⟩, ⟨id2, 2⟩]) ∧
      m.tets.get id2 = none ∧ o.tet ≠ w.tet ∧ id2 ≠ w.tet ∧ id2 ≠ o.tet ∧
      FlipFacts m m' [(a, b, c, d), (b, a, c, e)] [(b, a, d, e), (a, c, d, e), (c, b, d, e)]
        [w.tet, o.tet, id2] ∧
      m'.tet4 ⟨w.tet, 3⟩ = some (b, a, d, e) ∧ m'.tet4 ⟨o.tet, 3⟩ = some (a, c, d, e) ∧
      m'.tet4 ⟨id2, 3⟩ = some (c, b, d, e) ∧
      (∃ eid, m.edges.get eid = none ∧
        ∀ i, m'.edges.get i = if i = eid then some (UEdge.new (d, e)) else m.edges.get i) ∧
      m'.tets.size = m.tets.size + 1 ∧ m'.edges.size = m.edges.size + 1 := by
  obtain ⟨t0, h0, hq0⟩ := Mesh.tet4_iff.1 hw
  simp only [Mesh.toAdj, h0, Option.map_some, Option.some.injEq] at ho
  simp only [Mesh.fourth, Option.map_eq_some_iff] at hf
  obtain ⟨t1, h1, hf⟩ := hf
  have hq0' := hq0
  simp only [Tet.tet, Prod.mk.injEq] at hq0
  obtain ⟨q1, q2, q3, q4⟩ := hq0
  have hp : Pre23 m w t0 t1 := ⟨h0, ho ▸ h1, by rw [ho, q4, hf]; exact hne, roomT, roomE⟩
  obtain ⟨m', id2, eid, at0, at1, at2, ab0, ab1, ab2, hx, hq⟩ := flip23_exec hm hp
  rw [ho] at hx hq
  have hno' : ∀ k t i, m.tets.get k = some t → t.edge i ≠ (t0.fourth w.edge, t1.fourth o.edge) := by
    intro k t i ht he
    rw [q4, hf] at he
    exact hno ((hm.hasEdge d e).2 ⟨k, t, i, ht, he⟩)
  have hs := flip23_surgery hm ho hp hq hno'
  have hr := real23 hm ho hp hq hno'
  have hc := hs.consistent hm
  obtain ⟨hback, f1, f2, f3⟩ := tri_facts hm.adj h0 (ho ▸ h1)
  rw [ho] at hback f1 f2 f3
  have n10 : o.tet ≠ w.tet := ho ▸ hm.adj.no_self hm.distinct h0 w.edge
  have n20 : id2 ≠ w.tet := by intro e; have := hq.id2_free; rw [e, h0] at this; simp at this
  have n21 : id2 ≠ o.tet := by intro e; have := hq.id2_free; rw [e, h1] at this; simp at this
  have g0 := (hq.get w.tet).trans (if_pos rfl)
  have g1 := (hq.get o.tet).trans ((if_neg n10).trans (if_pos rfl))
  have g2 := (hq.get id2).trans ((if_neg n20).trans ((if_neg n21).trans (if_pos rfl)))
  have a0 := tet4_at g0
  have a1 := tet4_at g1
  have a2 := tet4_at g2
  obtain ⟨ewf, efr, -, eget, esz⟩ := IdMap.insert_some hm.stored.2.1 hq.edges
  have hq1 : t1.tet o.edge = (b, a, c, e) := by
    simp only [Tet.tet, f1, f2, f3, q1, q2, q3, hf]
  refine ⟨m', id2, hx, hq.id2_free, n10, n20, n21, ⟨hc, ?_, ⟨?_, ?_⟩, ?_, ⟨_, hq.rest⟩⟩, ?_, ?_, ?_, ⟨eid, efr, ?_⟩,
    hq.size, esz⟩
  · have b0 := rearr_self (new23 t0 o.tet id2 (t0.second w.edge) (t0.first w.edge)
      (t0.fourth w.edge) (t1.fourth o.edge) (t1.adj (toPerm o.edge P1032))
      (t0.adj (toPerm w.edge P1032)) ab0 at0 eid)
    have b1 := rearr_self (new23 t1 id2 w.tet (t0.first w.edge) (t0.third w.edge)
      (t0.fourth w.edge) (t1.fourth o.edge) (t1.adj (toPerm o.edge P2130))
      (t0.adj (toPerm w.edge P0231)) ab1 at1 eid)
    have b2 := rearr_self (new23 t0 w.tet o.tet (t0.third w.edge) (t0.second w.edge)
      (t0.fourth w.edge) (t1.fourth o.edge) (t1.adj (toPerm o.edge P0231))
      (t0.adj (toPerm w.edge P2130)) ab2 at2 eid)
    have r0 := t0.rearr_tet w.edge
    have r1 := t1.rearr_tet o.edge
    rw [hq0'] at r0
    rw [hq1] at r1
    rw [← q1, ← q2, ← q3, ← q4, ← hf]
    rw [← q1, ← q2, ← q3, ← q4] at r0
    rw [← q1, ← q2, ← q3, ← hf] at r1
    apply hs.replaces hm
    · simp only [List.mem_cons, List.not_mem_nil, or_false]
      rintro k (rfl | rfl)
      · exact ⟨_, .inl rfl, t0, h0, r0⟩
      · exact ⟨_, .inr rfl, t1, h1, r1⟩
    · simp only [List.mem_cons, List.not_mem_nil, or_false]
      rintro p (rfl | rfl)
      · exact ⟨_, .inl rfl, t0, h0, r0⟩
      · exact ⟨_, .inr rfl, t1, h1, r1⟩
    · simp only [List.mem_cons, List.not_mem_nil, or_false]
      rintro k (rfl | rfl | rfl)
      · exact ⟨_, .inl rfl, _, g0, b0⟩
      · exact ⟨_, .inr (.inl rfl), _, g1, b1⟩
      · exact ⟨_, .inr (.inr rfl), _, g2, b2⟩
    · simp only [List.mem_cons, List.not_mem_nil, or_false]
      rintro k (rfl | rfl | rfl)
      · exact ⟨_, .inl rfl, _, g0, b0⟩
      · exact ⟨_, .inr (.inl rfl), _, g1, b1⟩
      · exact ⟨_, .inr (.inr rfl), _, g2, b2⟩
  · exact hs.locksTri hm (hr.inner pat23_ok hm (by unfold pat23; decide))
  · apply locksEdge hc.eunique hm.eunique
    intro i ue hi
    rw [eget] at hi
    split_ifs at hi with h
    · right
      cases hi
      refine ⟨rfl, ?_⟩
      intro e0 ue0 he0 hv
      refine hno (hasEdge_iff.2 ⟨e0, ue0, he0, ?_⟩)
      rw [hv, q4, hf]
      rfl
    · exact .inl hi
  · intro x hx
    simp only [List.mem_cons, List.not_mem_nil, or_false, not_or] at hx
    exact hs.sur.same_tet4 x (by simp [hx]) (by simp [hx])
  · rw [← q1, ← q2, ← q4, ← hf]; exact a0
  · rw [← q1, ← q3, ← q4, ← hf]; exact a1
  · rw [← q2, ← q3, ← q4, ← hf]; exact a2
  · intro i
    rw [eget, q4, hf]

theorem flip32_sem {m : Mesh P V T} (hm : ConsistentT m) {w o1 o2 : Walker} {x y c d e : VId}
    (hw : m.tet4 w = some (x, y, c, d)) (s1 : m.ringStep w = some o1) (s2 : m.ringStep o1 = some o2)
    (s3 : m.ringStep o2 = some w) (hf : m.fourth o1 = some e) (hno : ¬ HasTri m (d, c, e)) :
    ∃ m', m.flip32Unchecked w = some (m', [⟨w.tet, 10⟩, ⟨o1.tet, 10⟩]) ∧
      o1.tet ≠ w.tet ∧ o2.tet ≠ o1.tet ∧ o2.tet ≠ w.tet ∧
      m.tet4 o1 = some (x, y, d, e) ∧ m.tet4 o2 = some (x, y, e, c) ∧
      FlipFacts m m' [(x, y, c, d), (x, y, d, e), (x, y, e, c)] [(d, c, e, x), (c, d, e, y)]
        [w.tet, o1.tet, o2.tet] ∧
      m'.tet4 ⟨w.tet, 3⟩ = some (d, c, e, x) ∧ m'.tet4 ⟨o1.tet, 3⟩ = some (c, d, e, y) ∧
      m'.tets.get o2.tet = none ∧
      (∃ e0 ue0, m.edges.get e0 = some ue0 ∧ ue0.vertices = sorted2 (x, y) ∧
        ∀ i, m'.edges.get i = if i = e0 then none else m.edges.get i) ∧
      m'.tets.size + 1 = m.tets.size ∧ m'.edges.size + 1 = m.edges.size := by
  obtain ⟨t0, h0, hq0⟩ := Mesh.tet4_iff.1 hw
  simp only [Mesh.ringStep, Mesh.toAdj, Option.map_eq_some_iff, Walker.twin] at s1 s2 s3
  obtain ⟨t0', h0', e1⟩ := s1
  rw [h0] at h0'; cases h0'
  obtain ⟨t1, h1, e2⟩ := s2
  obtain ⟨t2, h2, e3⟩ := s3
  simp only [Mesh.fourth, h1, Option.map_some, Option.some.injEq] at hf
  have hq0' := hq0
  simp only [Tet.tet, Prod.mk.injEq] at hq0
  obtain ⟨q1, q2, q3, q4⟩ := hq0
  have hp : Pre32 m w o1 o2 t0 t1 t2 := ⟨h0, e1, h1, e2, h2, e3⟩
  obtain ⟨m', at0, at1, at2, ab0, ab1, ab2, hx, hq⟩ := flip32_exec hm hp
  obtain ⟨n10, n21, n20, ⟨f1, f2, f3⟩, ⟨j1, j2, j3, j4⟩, -⟩ := hp.facts hm
  have hno' : ∀ k t i, k ∉ [w.tet, o1.tet, o2.tet] → m.tets.get k = some t →
      t.tri i ≠ (t0.fourth w.edge, t0.third w.edge, t1.fourth o1.edge) := by
    intro k t i _ ht he
    rw [q4, q3, hf] at he
    exact hno ⟨⟨k, i⟩, Mesh.tri_iff.2 ⟨t, ht, he⟩⟩
  have hs := flip32_surgery hm hp hq hno'
  have hr := real32 hm hp hq hno'
  have hc := hs.consistent hm
  have g0 := (hq.get w.tet).trans (if_pos rfl)
  have g1 := (hq.get o1.tet).trans ((if_neg n10).trans (if_pos rfl))
  have g2 := (hq.get o2.tet).trans ((if_neg n20).trans ((if_neg n21).trans (if_pos rfl)))
  have hq1 : t1.tet o1.edge = (x, y, d, e) := by
    simp only [Tet.tet, f1, f2, f3, q1, q2, q4, hf]
  have hq2 : t2.tet o2.edge = (x, y, e, c) := by
    simp only [Tet.tet, j1, j2, j3, j4, q1, q2, q3, hf]
  obtain ⟨old, hed⟩ := hq.edges
  obtain ⟨es, r1, r2, r3, r4, -⟩ := IdMap.remove_spec (t2.undirEdge o2.edge) hm.stored.2.1
  rw [hed] at r1
  obtain ⟨rfl, rfl⟩ : m'.edges = es ∧ old = _ := by simpa using r1
  obtain ⟨ue0, u1, u2⟩ := hm.eptr o2.tet t2 o2.edge h2
  have u2' : ue0.vertices = sorted2 (x, y) := by
    rw [u2, Tet.edge, j1, j2, q1, q2]
  rw [u1] at r4
  refine ⟨m', hx, n10, n21, n20, Mesh.tet4_iff.2 ⟨t1, h1, hq1⟩, Mesh.tet4_iff.2 ⟨t2, h2, hq2⟩,
    ⟨hc, ?_, ⟨?_, ?_⟩, ?_, ⟨_, hq.rest⟩⟩, ?_, ?_, g2, ⟨_, ue0, u1, u2', r3⟩, hq.size, r4⟩
  · have b0 := rearr_self (tetA32 w o1 o2 t0 t1 t2 at0 at1 at2)
    have b1 := rearr_self (tetB32 w o1 o2 t0 t1 t2 at0 at1 at2 ab0 ab1 ab2)
    have r0 := t0.rearr_tet w.edge
    have r1 := t1.rearr_tet o1.edge
    have r2 := t2.rearr_tet o2.edge
    rw [hq0'] at r0
    rw [hq1] at r1
    rw [hq2] at r2
    have b0' : EvenRearr (tetA32 w o1 o2 t0 t1 t2 at0 at1 at2).vertices (quad (d, c, e, x)) := by
      rw [← q1, ← q3, ← q4, ← hf]; exact b0
    have b1' : EvenRearr (tetB32 w o1 o2 t0 t1 t2 at0 at1 at2 ab0 ab1 ab2).vertices
        (quad (c, d, e, y)) := by
      rw [← q2, ← q3, ← q4, ← hf]; exact b1
    apply hs.replaces hm
    · simp only [List.mem_cons, List.not_mem_nil, or_false]
      rintro k (rfl | rfl | rfl)
      · exact ⟨_, .inl rfl, t0, h0, r0⟩
      · exact ⟨_, .inr (.inl rfl), t1, h1, r1⟩
      · exact ⟨_, .inr (.inr rfl), t2, h2, r2⟩
    · simp only [List.mem_cons, List.not_mem_nil, or_false]
      rintro p (rfl | rfl | rfl)
      · exact ⟨_, .inl rfl, t0, h0, r0⟩
      · exact ⟨_, .inr (.inl rfl), t1, h1, r1⟩
      · exact ⟨_, .inr (.inr rfl), t2, h2, r2⟩
    · simp only [List.mem_cons, List.not_mem_nil, or_false]
      rintro k (rfl | rfl)
      · exact ⟨_, .inl rfl, _, g0, b0'⟩
      · exact ⟨_, .inr rfl, _, g1, b1'⟩
    · simp only [List.mem_cons, List.not_mem_nil, or_false]
      rintro k (rfl | rfl)
      · exact ⟨_, .inl rfl, _, g0, b0'⟩
      · exact ⟨_, .inr rfl, _, g1, b1'⟩
  · exact hs.locksTri hm (hr.inner pat32_ok hm (by unfold pat32; decide))
  · apply locksEdge hc.eunique hm.eunique
    intro i ue hi
    rw [r3] at hi
    split_ifs at hi with h
    exact .inl hi
  · intro x hx
    simp only [List.mem_cons, List.not_mem_nil, or_false, not_or] at hx
    exact hs.sur.same_tet4 x (by simp [hx]) (by simp [hx])
  · rw [← q1, ← q3, ← q4, ← hf]; exact tet4_at g0
  · rw [← q2, ← q3, ← q4, ← hf]; exact tet4_at g1

theorem flip14_sem {m : Mesh P V T} (hm : ConsistentT m) {w : Walker} {v a b c d : VId}
    (hw : m.tet4 w = some (a, b, c, d)) (hfirst : firstIdx w.edge = 0)
    (hv : ∃ x, m.vertices.get v = some x) (hno : ∀ x, m.first x ≠ some v)
    (roomT : m.tets.size + 3 ≤ idMax) (roomE : m.edges.size + 4 ≤ idMax) :
    ∃ m' id1 id2 id3,
      m.flip14Unchecked w v = some (m', [⟨w.tet, 0⟩, ⟨id1, 1⟩, ⟨id2, 2⟩, ⟨id3, 3⟩]) ∧
      (m.tets.get id1 = none ∧ m.tets.get id2 = none ∧ m.tets.get id3 = none) ∧
      (id1 ≠ id2 ∧ id1 ≠ id3 ∧ id2 ≠ id3) ∧
      FlipFacts m m' [(a, b, c, d)] [(v, b, c, d), (a, v, c, d), (a, b, v, d), (a, b, c, v)]
        [w.tet, id1, id2, id3] ∧
      (∃ t0 t1 t2 t3, m.tet4 ⟨w.tet, 3⟩ = some (t0, t1, t2, t3) ∧
        m'.tet4 ⟨w.tet, 3⟩ = some (v, t1, t2, t3) ∧
        m'.tet4 ⟨id1, 3⟩ = some (t0, v, t2, t3) ∧ m'.tet4 ⟨id2, 3⟩ = some (t0, t1, v, t3) ∧
        m'.tet4 ⟨id3, 3⟩ = some (t0, t1, t2, v)) ∧
      (∀ u u', HasEdge m' u u' ↔ HasEdge m u u' ∨
        (u = v ∧ u' ∈ [a, b, c, d]) ∨ (u' = v ∧ u ∈ [a, b, c, d])) ∧
      m'.tets.size = m.tets.size + 3 ∧ m'.edges.size = m.edges.size + 4 := by
  obtain ⟨t, h0, hq0⟩ := Mesh.tet4_iff.1 hw
  have hp : Pre14 m w.tet v t := ⟨h0, hv, roomT, roomE⟩
  obtain ⟨m', id1, id2, id3, e0, e1, e2, e3, hx, hq⟩ := flip14_exec hm hp
  have hno' : ∀ k t i, m.tets.get k = some t → t.vertices i ≠ v := by
    intro k t i ht he
    have : ∀ i, ∃ c, firstIdx c = i := by decide
    obtain ⟨c, hc⟩ := this i
    refine hno ⟨k, c⟩ ?_
    simp only [Mesh.first, ht, Option.map_some, Tet.first, hc, he]
  have hs := flip14_surgery hm hp hq hfirst hno'
  have hr := real14 hm hp hq hno'
  have hc := hs.consistent hm
  have fr1 := hq.free.1
  have fr2 := hq.free.2.1
  have fr3 := hq.free.2.2
  obtain ⟨n12, n13, n23⟩ := hq.ne
  have n1 : id1 ≠ w.tet := by rintro rfl; rw [h0] at fr1; simp at fr1
  have n2 : id2 ≠ w.tet := by rintro rfl; rw [h0] at fr2; simp at fr2
  have n3 : id3 ≠ w.tet := by rintro rfl; rw [h0] at fr3; simp at fr3
  have g0 := (hq.get w.tet).trans (if_pos rfl)
  have g1 := (hq.get id1).trans ((if_neg n1).trans (if_pos rfl))
  have g2 := (hq.get id2).trans ((if_neg n2).trans ((if_neg n12.symm).trans (if_pos rfl)))
  have g3 := (hq.get id3).trans ((if_neg n3).trans ((if_neg n13.symm).trans ((if_neg n23.symm).trans
    (if_pos rfl))))
  have vN : ∀ i j, (tets14 t v w.tet id1 id2 id3 e0 e1 e2 e3 i).vertices j =
      if j = i then v else t.vertices j := by
    intro i j
    rcases fin4 i with rfl | rfl | rfl | rfl <;> rcases fin4 j with rfl | rfl | rfl | rfl <;> rfl
  have gN : ∀ i, m'.tets.get ((![w.tet, id1, id2, id3] : Fin 4 → TId) i) =
      some (tets14 t v w.tet id1 id2 id3 e0 e1 e2 e3 i) := by
    intro i
    rcases fin4 i with rfl | rfl | rfl | rfl
    exacts [g0, g1, g2, g3]
  -- the new tets up to order
  have new4 : ∀ j, EvenRearr (tets14 t v w.tet id1 id2 id3 e0 e1 e2 e3 (perms w.edge j)).vertices
      (quad ((![(v, b, c, d), (a, v, c, d), (a, b, v, d), (a, b, c, v)] : Fin 4 → V4) j)) := by
    intro j
    rw [evenRearr_iff]
    refine ⟨w.edge, fun i => ?_⟩
    rw [vN]
    have hi : ∀ i, t.vertices (perms w.edge i) = quad (a, b, c, d) i := by
      intro i; rw [← hq0, Tet.quad_tet]
    rw [hi]
    by_cases hij : i = j
    · subst hij
      rw [if_pos rfl]
      rcases fin4 i with rfl | rfl | rfl | rfl <;> rfl
    · rw [if_neg fun h => hij (perms_injective _ _ _ h)]
      rcases fin4 i with rfl | rfl | rfl | rfl <;> rcases fin4 j with rfl | rfl | rfl | rfl <;>
        first | rfl | exact absurd rfl hij
  have surj : ∀ (e : Code) (i : Fin 4), ∃ j, perms e j = i := by decide
  have r0 := t.rearr_tet w.edge
  rw [hq0] at r0
  have memN : ∀ k, k ∈ [w.tet, id1, id2, id3] ↔ ∃ i, k = (![w.tet, id1, id2, id3] : Fin 4 → TId) i :=
    hr.memN
  have mem4 : ∀ p, p ∈ [(v, b, c, d), (a, v, c, d), (a, b, v, d), (a, b, c, v)] ↔
      ∃ j, p = (![(v, b, c, d), (a, v, c, d), (a, b, v, d), (a, b, c, v)] : Fin 4 → V4) j := by
    intro p; simp [Fin.exists_fin_succ]
  have vmem : ∀ u, u ∈ [a, b, c, d] ↔ ∃ i, u = t.vertices i := by
    intro u
    have : u ∈ [a, b, c, d] ↔ ∃ j, u = quad (a, b, c, d) j := by simp [Fin.exists_fin_succ, quad]
    rw [this, ← hq0]
    constructor
    · rintro ⟨j, hj⟩
      exact ⟨_, hj.trans (t.quad_tet _ _)⟩
    · rintro ⟨i, hi⟩
      obtain ⟨j, rfl⟩ := surj w.edge i
      exact ⟨j, hi.trans (t.quad_tet _ _).symm⟩
  have eget : ∀ e ue, m'.edges.get e = some ue ↔ m.edges.get e = some ue ∨
      ∃ i : Fin 4, e = (![e0, e1, e2, e3] : Fin 4 → EId) i ∧ ue = UEdge.new (t.vertices i, v) := by
    intro e ue
    obtain ⟨ef0, ef1, ef2, ef3⟩ := hq.efree
    obtain ⟨q01, q02, q03, q12, q13, q23⟩ := hq.ene
    rw [hq.edges]
    constructor
    · intro h
      split_ifs at h with c3 c2 c1 c0
      · exact .inr ⟨3, c3, by cases h; rfl⟩
      · exact .inr ⟨2, c2, by cases h; rfl⟩
      · exact .inr ⟨1, c1, by cases h; rfl⟩
      · exact .inr ⟨0, c0, by cases h; rfl⟩
      · exact .inl h
    · rintro (h | ⟨i, rfl, rfl⟩)
      · rw [if_neg, if_neg, if_neg, if_neg, h] <;> rintro rfl
        · rw [ef0] at h; cases h
        · rw [ef1] at h; cases h
        · rw [ef2] at h; cases h
        · rw [ef3] at h; cases h
      · rcases fin4 i with rfl | rfl | rfl | rfl
        · exact (if_neg q03).trans ((if_neg q02).trans ((if_neg q01).trans (if_pos rfl)))
        · exact (if_neg q13).trans ((if_neg q12).trans (if_pos rfl))
        · exact (if_neg q23).trans (if_pos rfl)
        · exact if_pos rfl
  have noE : ∀ i u, ¬ HasEdge m (t.vertices i) v ∧ ¬ HasEdge m u v := by
    have : ∀ u, ¬ HasEdge m u v := by
      intro u h
      obtain ⟨k, t', e, h1, h2⟩ := (hm.hasEdge _ _).1 h
      exact hno' k t' _ h1 (congrArg Prod.snd h2)
    exact fun i u => ⟨this _, this _⟩
  refine ⟨m', id1, id2, id3, hx, hq.free, hq.ne, ⟨hc, ?_, ⟨?_, ?_⟩, ?_, ⟨_, hq.rest⟩⟩,
    ⟨_, _, _, _, tet4_at h0, tet4_at g0, tet4_at g1, tet4_at g2, tet4_at g3⟩, ?_, hq.size, hq.esize⟩
  · apply hs.replaces hm
    · simp only [List.mem_cons, List.not_mem_nil, or_false]
      rintro k rfl
      exact ⟨_, rfl, t, h0, r0⟩
    · simp only [List.mem_cons, List.not_mem_nil, or_false]
      rintro k rfl
      exact ⟨_, rfl, t, h0, r0⟩
    · intro k hk
      obtain ⟨i, rfl⟩ := (memN k).1 hk
      obtain ⟨j, rfl⟩ := surj w.edge i
      exact ⟨_, (mem4 _).2 ⟨j, rfl⟩, _, gN _, new4 j⟩
    · intro p hp
      obtain ⟨j, rfl⟩ := (mem4 p).1 hp
      exact ⟨_, (memN _).2 ⟨perms w.edge j, rfl⟩, _, gN _, new4 j⟩
  · exact hs.locksTri hm (hr.inner pat14_ok hm (by unfold pat14; decide))
  · apply locksEdge hc.eunique hm.eunique
    intro e ue he
    rcases (eget e ue).1 he with h | ⟨i, rfl, rfl⟩
    · exact .inl h
    · right
      refine ⟨rfl, ?_⟩
      intro e' ue' he' hv'
      exact (noE i v).1 (hasEdge_iff.2 ⟨e', ue', he', hv'⟩)
  · intro x hx
    have hx' := hx
    simp only [List.mem_cons, List.not_mem_nil, or_false, not_or] at hx
    exact hs.sur.same_tet4 x (by simp [hx]) hx'
  · intro u u'
    rw [hasEdge_iff, hasEdge_iff, vmem, vmem]
    constructor
    · rintro ⟨e, ue, h1, h2⟩
      rcases (eget e ue).1 h1 with h | ⟨i, rfl, rfl⟩
      · exact .inl ⟨e, ue, h, h2⟩
      · have h3 : sorted2 _ = sorted2 _ := h2
        rw [sorted2_eq_iff] at h3
        simp only [Prod.mk.injEq, Prod.swap] at h3
        rcases h3 with ⟨h3, h4⟩ | ⟨h3, h4⟩
        · exact .inr (.inr ⟨h4, i, h3⟩)
        · exact .inr (.inl ⟨h3, i, h4⟩)
    · rintro (⟨e, ue, h1, h2⟩ | ⟨rfl, i, rfl⟩ | ⟨rfl, i, rfl⟩)
      · exact ⟨e, ue, (eget e ue).2 (.inl h1), h2⟩
      · refine ⟨_, _, (eget _ _).2 (.inr ⟨i, rfl, rfl⟩), ?_⟩
        show sorted2 _ = sorted2 _
        rw [sorted2_eq_iff]
        exact .inr rfl
      · exact ⟨_, _, (eget _ _).2 (.inr ⟨i, rfl, rfl⟩), rfl⟩

end Tet
