import Verif.Proofs.FlipCommon

/-!
# Flips as patterns

The flips replace a fixed small configuration of tets by another one.  A pattern lists the
vertices of the old and new tets by number, and which outer face goes where; it is checked
by evaluation.  A pattern realised in a mesh is a replacement in the sense of `Surgery`.
-/

namespace Tet
open Spec

variable {P V T : Type}

/-- The turn of `Tet.turn`, on codes. -/
def turnCode (d c : Code) : Code :=
  match div4 d with
  | 0 => c
  | 1 => pfe c
  | 2 => nfe c

theorem div4_cases : ∀ d, div4 d = 0 ∨ div4 d = 1 ∨ div4 d = 2 := by decide

theorem turn_eq (d : Code) (w : Walker) : Tet.turn d w = ⟨w.tet, turnCode d w.edge⟩ := by
  rcases div4_cases d with h | h | h <;> simp [Tet.turn, turnCode, h, Walker.pfe, Walker.nfe]

theorem face_turnCode (d c : Code) : face (turnCode d c) = face c := by
  simp only [turnCode]
  split <;> simp [face_nfe, face_pfe]

theorem toPerm_nfe : ∀ a c, toPerm a (nfe c) = nfe (toPerm a c) := by decide
theorem toPerm_pfe : ∀ a c, toPerm a (pfe c) = pfe (toPerm a c) := by decide

theorem turn_adj (t : Tet T) (r d c : Code) :
    Tet.turn d (t.adj (toPerm r (turnCode d c))) = t.adj (toPerm r c) := by
  rcases div4_cases d with h | h | h
  · simp [Tet.turn, turnCode, h]
  · simp [Tet.turn, turnCode, h, toPerm_pfe, Tet.adj_pfe, Walker.nfe, Walker.pfe, pfe_nfe]
  · simp [Tet.turn, turnCode, h, toPerm_nfe, Tet.adj_nfe, Walker.nfe, Walker.pfe, nfe_pfe]

def ptri {α : Type} (v : Fin 4 → α) (c : Code) : α × α × α := (v (perms c 0), v (perms c 1), v (perms c 2))
def pedge {α : Type} (v : Fin 4 → α) (c : Code) : α × α := (v (perms c 0), v (perms c 1))

theorem Tet.tri_eq (t : Tet T) (c) : t.tri c = ptri t.vertices c := by
  simp only [Tet.tri, ptri, Tet.first_eq, Tet.second_eq, Tet.third_eq]
theorem Tet.edge_eq (t : Tet T) (c) : t.edge c = pedge t.vertices c := by
  simp only [Tet.edge, pedge, Tet.first_eq, Tet.second_eq]

def map2 {α β : Type} (f : α → β) (x : α × α) : β × β := (f x.1, f x.2)
def map3 {α β : Type} (f : α → β) (x : α × α × α) : β × β × β := (f x.1, f x.2.1, f x.2.2)

theorem map2_inj {α β : Type} {f : α → β} (h : Function.Injective f) {x y} (e : map2 f x = map2 f y) :
    x = y := by
  obtain ⟨a, b⟩ := x
  obtain ⟨c, d⟩ := y
  simp only [map2, Prod.mk.injEq] at e ⊢
  exact ⟨h e.1, h e.2⟩

theorem map3_inj {α β : Type} {f : α → β} (h : Function.Injective f) {x y} (e : map3 f x = map3 f y) :
    x = y := by
  obtain ⟨a, b, b'⟩ := x
  obtain ⟨c, d, d'⟩ := y
  simp only [map3, Prod.mk.injEq] at e ⊢
  exact ⟨h e.1, h e.2.1, h e.2.2⟩

theorem edge_of_tri {nV : Nat} {t : Tet T} {e : Code} {L : Fin nV → VId} {v : Fin 4 → Fin nV} {d : Code}
    (h : t.tri e = map3 L (ptri v d)) : ∀ x ∈ [d, nfe d, pfe d], ∃ y, t.edge y = map2 L (pedge v x) := by
  have k : ∀ c, perms (nfe c) 0 = perms c 1 ∧ perms (nfe c) 1 = perms c 2 ∧ perms (pfe c) 0 = perms c 2 ∧
    perms (pfe c) 1 = perms c 0 := by decide
  rw [Tet.tri_eq] at h
  simp only [ptri, map3, Prod.mk.injEq] at h
  intro x hx
  simp only [List.mem_cons, List.not_mem_nil, or_false] at hx
  rcases hx with rfl | rfl | rfl
  · exact ⟨e, by rw [Tet.edge_eq]; simp only [pedge, map2, h]⟩
  · exact ⟨nfe e, by rw [Tet.edge_eq]; simp only [pedge, map2, k, h]⟩
  · exact ⟨pfe e, by rw [Tet.edge_eq]; simp only [pedge, map2, k, h]⟩

/-- Across a face, the edge ids and locks agree. -/
theorem nbr_undir {m : Mesh P V T} (hm : ConsistentT m) {k t a e} (h : m.tets.get k = some t)
    (ha : m.tets.get (t.adj e).tet = some a) : a.undirEdge (t.adj e).edge = t.undirEdge e := by
  obtain ⟨a', h1, -, h3⟩ := hm.adj k t e h
  rw [ha] at h1
  cases h1
  obtain ⟨ue, h4, h5⟩ := hm.eptr k t e h
  obtain ⟨ue', h6, h7⟩ := hm.eptr _ a (t.adj e).edge ha
  refine hm.eunique _ _ ue' ue h6 h4 ?_
  rw [h5, h7, sorted2_eq_iff]
  right
  simp only [Tet.tri, Prod.mk.injEq] at h3
  simp only [Tet.edge, h3.1, h3.2.1, Prod.swap]

theorem nbr_undir_pfe {m : Mesh P V T} (hm : ConsistentT m) {k t a e} (h : m.tets.get k = some t)
    (ha : m.tets.get (t.adj e).tet = some a) : a.undirEdge (pfe (t.adj e).edge) = t.undirEdge (nfe e) := by
  rw [← nbr_undir hm h (a := a) (e := nfe e) (by rw [Tet.adj_nfe]; exact ha), Tet.adj_nfe]
  rfl

theorem nbr_undir_nfe {m : Mesh P V T} (hm : ConsistentT m) {k t a e} (h : m.tets.get k = some t)
    (ha : m.tets.get (t.adj e).tet = some a) : a.undirEdge (nfe (t.adj e).edge) = t.undirEdge (pfe e) := by
  rw [← nbr_undir hm h (a := a) (e := pfe e) (by rw [Tet.adj_pfe]; exact ha), Tet.adj_pfe]
  rfl

theorem toUndirEdge_undirIdx : ∀ d, d = toUndirEdge (undirIdx d) ∨ d = twin (toUndirEdge (undirIdx d)) := by
  decide

theorem pedge_twin {α : Type} (v : Fin 4 → α) (c : Code) : pedge v (twin c) = (pedge v c).swap := by
  have : ∀ c, perms (twin c) 0 = perms c 1 ∧ perms (twin c) 1 = perms c 0 := by decide
  simp [pedge, this, Prod.swap]

/-- It is enough to look at the six slots. -/
theorem slots_enough {E : EId → Option UEdge} {n nV : Nat} (tN : Fin n → Tet T) (L : Fin nV → VId)
    (v : Fin n → Fin 4 → Fin nV)
    (h : ∀ j s, ∃ ue, E ((tN j).edges s) = some ue ∧
      ue.vertices = sorted2 (map2 L (pedge (v j) (toUndirEdge s)))) (j d) :
    ∃ ue, E ((tN j).undirEdge d) = some ue ∧ ue.vertices = sorted2 (map2 L (pedge (v j) d)) := by
  obtain ⟨ue, h1, h2⟩ := h j (undirIdx d)
  refine ⟨ue, h1, h2.trans ?_⟩
  rw [sorted2_eq_iff]
  rcases toUndirEdge_undirIdx d with hd | hd
  · exact .inl (by rw [← hd])
  · right
    have : pedge (v j) d = (pedge (v j) (toUndirEdge (undirIdx d))).swap := by
      rw [← pedge_twin, ← hd]
    rw [this]
    rfl

structure Pat (nV nO nN : Nat) where
  /-- vertices of the old tets -/
  old : Fin nO → Fin 4 → Fin nV
  /-- vertices of the new tets -/
  new : Fin nN → Fin 4 → Fin nV
  /-- inner faces of the old tets -/
  oin : Fin nO → Fin 4 → Bool
  /-- gluing of the inner faces of the new tets -/
  nin : Fin nN → Fin 4 → Option (Fin nN × Code)
  /-- where the outer faces go -/
  tgt : Fin nO → Fin 4 → Fin nN × Code
  /-- where the outer faces come from -/
  src : Fin nN → Fin 4 → Fin nO × Code

namespace Pat
variable {nV nO nN : Nat}

def ntgt (p : Pat nV nO nN) (i : Fin nO) (c : Code) : Fin nN × Code :=
  ((p.tgt i (face c)).1, permInv (p.tgt i (face c)).2 c)

/-- One step around an edge through an inner face. -/
def nstep (p : Pat nV nO nN) (x : Fin nN × Code) : Option (Fin nN × Code) :=
  (p.nin x.1 (face (twin x.2))).map fun y => (y.1, turnCode (twin x.2) y.2)

/-- The checks. -/
structure OK (p : Pat nV nO nN) : Prop where
  tgt_tri : ∀ i c, p.oin i (face c) = false →
    ptri (p.new (p.ntgt i c).1) (p.ntgt i c).2 = ptri (p.old i) c
  tgt_out : ∀ i c, p.oin i (face c) = false → p.nin (p.ntgt i c).1 (face (p.ntgt i c).2) = none
  src_tgt : ∀ i c, p.oin i (face c) = false →
    p.src (p.ntgt i c).1 (face (p.ntgt i c).2) = (i, turnCode (p.ntgt i c).2 c)
  tgt_src : ∀ j f, p.nin j f = none → p.oin (p.src j f).1 (face (p.src j f).2) = false ∧
    p.ntgt (p.src j f).1 (p.src j f).2 = (j, canonCode f)
  glue : ∀ j d, ∀ y ∈ p.nin j (face d), ∃ y' ∈ p.nin y.1 (face (turnCode d y.2)),
    y'.1 = j ∧ turnCode (turnCode d y.2) y'.2 = d ∧
    ptri (p.new y.1) (turnCode d y.2) =
      ((ptri (p.new j) d).2.1, (ptri (p.new j) d).1, (ptri (p.new j) d).2.2)
  inj : ∀ j, Function.Injective (p.new j)
  tin : ∀ j d j' d', ptri (p.new j') d' = ptri (p.new j) d → j' = j ∧ d' = d
  rin : ∀ j d j' d', pedge (p.new j') d' = pedge (p.new j) d → (j, d) = (j', d') ∨
    p.nstep (j, d) = some (j', d') ∨ (p.nstep (j, d)).bind p.nstep = some (j', d') ∨
    p.nstep (j', d') = some (j, d) ∨ (p.nstep (j', d')).bind p.nstep = some (j, d)

/-- The pattern occurs in a mesh and has been replaced. -/
structure Real (p : Pat nV nO nN) (m m' : Mesh P V T) (C N : List TId)
    (A : TId → Fin 4 → TId × Code) (idO : Fin nO → TId) (idN : Fin nN → TId) (rot : Fin nO → Code)
    (tO : Fin nO → Tet T) (tN : Fin nN → Tet T) (L : Fin nV → VId) : Prop where
  memC : ∀ k, k ∈ C ↔ ∃ i, k = idO i
  memN : ∀ k, k ∈ N ↔ ∃ i, k = idN i
  getO : ∀ i, m.tets.get (idO i) = some (tO i)
  getN : ∀ i, m'.tets.get (idN i) = some (tN i)
  fresh : ∀ i, idN i ∉ C → m.tets.get (idN i) = none
  dead : ∀ i, idO i ∉ N → m'.tets.get (idO i) = none
  out : ∀ k, k ∉ C → k ∉ N → m'.tets.get k = (m.tets.get k).map (patch C A)
  injL : Function.Injective L
  vO : ∀ i j, (tO i).vertices (perms (rot i) j) = L (p.old i j)
  vN : ∀ i j, (tN i).vertices j = L (p.new i j)
  inC : ∀ i c, p.oin i (face c) = true → ((tO i).adj (toPerm (rot i) c)).tet ∈ C
  outC : ∀ i c, p.oin i (face c) = false → ((tO i).adj (toPerm (rot i) c)).tet ∉ C
  moved : ∀ i c, p.oin i (face c) = false → Tet.moved A ⟨idO i, toPerm (rot i) c⟩ =
    ⟨idN (p.ntgt i c).1, (p.ntgt i c).2⟩
  oppI : ∀ j f, ∀ y ∈ p.nin j f, (tN j).opp f = ⟨idN y.1, y.2⟩
  oppO : ∀ j f, p.nin j f = none →
    (tN j).opp f = (tO (p.src j f).1).adj (toPerm (rot (p.src j f).1) (p.src j f).2)
  lockI : ∀ j f, p.nin j f ≠ none → (tN j).flags.locked f = false
  lockO : ∀ j f, p.nin j f = none → (tN j).flags.locked f =
    (tO (p.src j f).1).flags.locked (face (toPerm (rot (p.src j f).1) (p.src j f).2))
  /-- new edges did not exist -/
  enew : ∀ j d, (∃ i c, pedge (p.old i) c = pedge (p.new j) d) ∨
    ∀ k t e, m.tets.get k = some t → t.edge e ≠ map2 L (pedge (p.new j) d)
  /-- old edges that are not edges of the new tets are gone -/
  eold : ∀ i c, (∃ j d, pedge (p.new j) d = pedge (p.old i) c) ∨
    ∀ k t e, k ∉ C → m.tets.get k = some t → t.edge e ≠ map2 L (pedge (p.old i) c)
  /-- new triangles did not exist -/
  tnew : ∀ j d, p.nin j (face d) ≠ none → ∀ k t e, k ∉ C → m.tets.get k = some t →
    t.tri e ≠ map3 L (ptri (p.new j) d)

namespace Real
variable {p : Pat nV nO nN} {m m' : Mesh P V T} {C N : List TId}
    {A : TId → Fin 4 → TId × Code} {idO : Fin nO → TId} {idN : Fin nN → TId} {rot : Fin nO → Code}
    {tO : Fin nO → Tet T} {tN : Fin nN → Tet T} {L : Fin nV → VId}

theorem triO (h : Real p m m' C N A idO idN rot tO tN L) (i c) :
    (tO i).tri (toPerm (rot i) c) = map3 L (ptri (p.old i) c) := by
  rw [Tet.tri_eq]
  simp only [ptri, map3, perms_toPerm, h.vO]

theorem edgeO (h : Real p m m' C N A idO idN rot tO tN L) (i c) :
    (tO i).edge (toPerm (rot i) c) = map2 L (pedge (p.old i) c) := by
  rw [Tet.edge_eq]
  simp only [pedge, map2, perms_toPerm, h.vO]

theorem triN (h : Real p m m' C N A idO idN rot tO tN L) (i c) :
    (tN i).tri c = map3 L (ptri (p.new i) c) := by
  rw [Tet.tri_eq]
  simp only [ptri, map3, h.vN]

theorem edgeN (h : Real p m m' C N A idO idN rot tO tN L) (i c) :
    (tN i).edge c = map2 L (pedge (p.new i) c) := by
  rw [Tet.edge_eq]
  simp only [pedge, map2, h.vN]

theorem adjO (h : Real p m m' C N A idO idN rot tO tN L) (hp : p.OK) {i c}
    (hc : p.oin i (face c) = false) :
    (tN (p.ntgt i c).1).adj (p.ntgt i c).2 = (tO i).adj (toPerm (rot i) c) := by
  rw [Tet.adj, h.oppO _ _ (hp.tgt_out i c hc), hp.src_tgt i c hc]
  exact turn_adj _ _ _ _

theorem adjI (h : Real p m m' C N A idO idN rot tO tN L) {j d y}
    (hy : p.nin j (face d) = some y) : (tN j).adj d = ⟨idN y.1, turnCode d y.2⟩ := by
  rw [Tet.adj, h.oppI _ _ y hy, turn_eq]

theorem surgery (h : Real p m m' C N A idO idN rot tO tN L) (hp : p.OK) :
    Surgery m.tets.get m'.tets.get C N A := by
  refine ⟨h.out, ?_, ?_, ?_, ?_⟩
  · intro k hk hk'
    obtain ⟨i, rfl⟩ := (h.memN k).1 hk
    exact h.fresh i hk'
  · intro k hk hk'
    obtain ⟨i, rfl⟩ := (h.memC k).1 hk
    exact h.dead i hk'
  · rintro ⟨k, e⟩ t hk ht ha
    obtain ⟨i, rfl⟩ := (h.memC k).1 hk
    rw [h.getO] at ht
    cases ht
    obtain ⟨c, rfl⟩ : ∃ c, e = toPerm (rot i) c := ⟨permInv (rot i) e, (toPerm_permInv _ _).symm⟩
    have hc : p.oin i (face c) = false := by
      cases hcc : p.oin i (face c) with
      | false => rfl
      | true => exact absurd (h.inC i c hcc) ha
    rw [h.moved i c hc]
    refine ⟨(h.memN _).2 ⟨_, rfl⟩, _, h.getN _, h.adjO hp hc, ?_⟩
    rw [h.triN, h.triO, hp.tgt_tri i c hc]
  · rintro ⟨k, d⟩ t hk ht
    obtain ⟨j, rfl⟩ := (h.memN k).1 hk
    rw [h.getN] at ht
    cases ht
    cases hd : p.nin j (face d) with
    | none =>
      left
      obtain ⟨h1, h2⟩ := hp.tgt_src j (face d) hd
      -- turn the source of the canonical code
      have key : ∀ d, ∃ s, (∀ a x, permInv a (turnCode s x) = turnCode s (permInv a x)) ∧
          d = turnCode s (canonCode (face d)) := by
        intro d
        obtain ⟨s, hs⟩ : ∃ s, d = turnCode s (canonCode (face d)) := by revert d; decide
        refine ⟨s, ?_, hs⟩
        intro a x
        simp only [turnCode]
        split
        · rfl
        · exact permInv_pfe _ _
        · exact permInv_nfe _ _
      obtain ⟨s, hs, hd'⟩ := key d
      have hf : face (turnCode s (p.src j (face d)).2) = face (p.src j (face d)).2 := face_turnCode _ _
      have hc : p.oin (p.src j (face d)).1 (face (turnCode s (p.src j (face d)).2)) = false := by
        rw [hf]; exact h1
      refine ⟨⟨idO (p.src j (face d)).1, toPerm (rot (p.src j (face d)).1)
        (turnCode s (p.src j (face d)).2)⟩, _, (h.memC _).2 ⟨_, rfl⟩, h.getO _, h.outC _ _ hc, ?_⟩
      rw [h.moved _ _ hc]
      simp only [ntgt, hf, hs, Prod.mk.injEq] at h2 ⊢
      rw [h2.1, h2.2, ← hd']
    | some y =>
      right
      obtain ⟨y', hy', h1, h2, h3⟩ := hp.glue j d y hd
      simp only [h.adjI hd]
      refine ⟨(h.memN _).2 ⟨_, rfl⟩, _, h.getN _, ?_, ?_⟩
      · rw [h.adjI hy', h1, h2]
      · rw [h.triN, h3]
        have := h.triN j d
        simp only [Tet.tri, map3, Prod.mk.injEq] at this ⊢
        rw [this.1, this.2.1, this.2.2]
        trivial

theorem ring (h : Real p m m' C N A idO idN rot tO tN L) {x y : Fin nN × Code}
    (hs : p.nstep x = some y) : RingT m'.tets.get ⟨idN x.1, x.2⟩ ⟨idN y.1, y.2⟩ := by
  simp only [nstep, Option.map_eq_some_iff] at hs
  obtain ⟨z, hz, rfl⟩ := hs
  have := RingT.step (RingT.refl (M := m'.tets.get) ⟨idN x.1, x.2⟩) (h.getN x.1)
  rw [h.adjI hz] at this
  exact this

theorem rin (h : Real p m m' C N A idO idN rot tO tN L) (hp : p.OK) {j d j' d'}
    (he : pedge (p.new j') d' = pedge (p.new j) d) :
    RingT m'.tets.get ⟨idN j, d⟩ ⟨idN j', d'⟩ := by
  have two : ∀ x y, (p.nstep x).bind p.nstep = some y →
      RingT m'.tets.get ⟨idN x.1, x.2⟩ ⟨idN y.1, y.2⟩ := by
    intro x y hxy
    cases hx : p.nstep x with
    | none => rw [hx] at hxy; simp at hxy
    | some z =>
      rw [hx] at hxy
      exact (h.ring hx).trans (h.ring hxy)
  rcases hp.rin j d j' d' he with h1 | h1 | h1 | h1 | h1
  · simp only [Prod.mk.injEq] at h1
    rw [h1.1, h1.2]
    exact .refl _
  · exact h.ring h1
  · exact two _ _ h1
  · exact (h.ring h1).symm
  · exact (two _ _ h1).symm

theorem meshSurgery (h : Real p m m' C N A idO idN rot tO tN L) (hp : p.OK) (hm : ConsistentT m)
    (hadd : ∀ v, ¬ (∃ i j, v = L (p.old i j)) → ∀ j d, v = L (p.new j d) → ∃ x, m.vertices.get v = some x)
    (Lst : List (VId × Walker)) (hvs : m'.vertices = setTets m.vertices Lst)
    (hLst : ∀ q ∈ Lst, ∃ j c, q.2 = ⟨idN j, c⟩ ∧ q.1 = L (p.new j (perms c 0)))
    (hall : ∀ a, ∃ w, (L a, w) ∈ Lst)
    (hwf : m'.edges.WF ∧ m'.tets.WF) (htr : m'.trackTriMap = m.trackTriMap) (htri : TriUpd m m' C N)
    (ekeep : ∀ k t i ue, k ∉ C → m.tets.get k = some t → m.edges.get (t.edges i) = some ue →
      ∃ ue', m'.edges.get (t.edges i) = some ue' ∧ ue'.vertices = ue.vertices)
    (enew : ∀ j d, ∃ ue, m'.edges.get ((tN j).undirEdge d) = some ue ∧
      ue.vertices = sorted2 (map2 L (pedge (p.new j) d)))
    (eunique : ∀ e e' ue ue', m'.edges.get e = some ue → m'.edges.get e' = some ue' →
      ue.vertices = ue'.vertices → e = e')
    (eused : ∀ e ue, m'.edges.get e = some ue → ∃ k t i, m'.tets.get k = some t ∧ t.undirEdge i = e) :
    MeshSurgery m m' C N A := by
  have hN : ∀ k t, k ∈ N → m'.tets.get k = some t → ∃ j, k = idN j ∧ t = tN j := by
    intro k t hk ht
    obtain ⟨j, rfl⟩ := (h.memN k).1 hk
    rw [h.getN] at ht
    cases ht
    exact ⟨j, rfl, rfl⟩
  have hC : ∀ k t, k ∈ C → m.tets.get k = some t → ∃ i, k = idO i ∧ t = tO i := by
    intro k t hk ht
    obtain ⟨j, rfl⟩ := (h.memC k).1 hk
    rw [h.getO] at ht
    cases ht
    exact ⟨j, rfl, rfl⟩
  have rel : ∀ r e, ∃ c, e = toPerm r c := fun r e => ⟨permInv r e, (toPerm_permInv _ _).symm⟩
  have vtx : ∀ i (a : Fin 4), ∃ b, (tO i).vertices a = L (p.old i b) := by
    intro i a
    have : ∀ (r : Code) (a : Fin 4), ∃ j, a = perms r j := by decide
    obtain ⟨j, hj⟩ := this (rot i) a
    exact ⟨j, by rw [hj]; exact h.vO i j⟩
  have adjN : ∀ j d, ((tN j).adj d).tet ∈ N → p.nin j (face d) ≠ none ∨
      ∃ i c, p.oin i (face c) = false ∧ (j, d) = p.ntgt i c := by
    intro j d _
    cases hd : p.nin j (face d) with
    | some y => exact .inl (by simp)
    | none =>
      right
      obtain ⟨h5, h6⟩ := hp.tgt_src j (face d) hd
      obtain ⟨s, hs⟩ : ∃ s, d = turnCode s (canonCode (face d)) := by
        have : ∀ d, ∃ s, d = turnCode s (canonCode (face d)) := by decide
        exact this d
      refine ⟨(p.src j (face d)).1, turnCode s (p.src j (face d)).2, ?_, ?_⟩
      · rw [face_turnCode]; exact h5
      · simp only [ntgt, face_turnCode, Prod.mk.injEq] at h6 ⊢
        refine ⟨h6.1.symm, ?_⟩
        have hs' : ∀ a x, permInv a (turnCode s x) = turnCode s (permInv a x) := by
          intro a x
          simp only [turnCode]
          split
          · rfl
          · exact permInv_pfe _ _
          · exact permInv_nfe _ _
        rw [hs', h6.2]; exact hs
  have firstN : ∀ q ∈ Lst, q.2.tet ∈ N ∧ ∃ t, m'.tets.get q.2.tet = some t ∧ t.first q.2.edge = q.1 := by
    intro q hq
    obtain ⟨j, c, h1, h2⟩ := hLst q hq
    rw [h1, h2]
    exact ⟨(h.memN _).2 ⟨_, rfl⟩, _, h.getN j, by rw [Tet.first_eq, h.vN]⟩
  have live : ∀ k t i, k ∈ C → m.tets.get k = some t → t.vertices i = GHOST ∨
      ∃ x, m.vertices.get (t.vertices i) = some x := by
    intro k t i _ ht
    rcases hm.vlive k t i ht with h1 | ⟨x, -, h1, -⟩
    · exact .inl h1
    · exact .inr ⟨x, h1⟩
  refine
    { sur := h.surgery hp, stored := ⟨hvs ▸ setTets_wf hm.stored.1 _, hwf⟩, distinct := ?_, vref := ?_,
      vkeep := ?_, vnew := ?_, ekeep := ekeep, enew := ?_, eunique := eunique, eused := eused, tin := ?_,
      tout := ?_, rin := ?_, rnew := ?_, rold := ?_, lout := ?_, lin := ?_, track := htr, msound := ?_,
      mnew := ?_, mkeep := ?_ }
  · intro k hk t ht
    obtain ⟨j, rfl, rfl⟩ := hN k t hk ht
    intro a b hab
    rw [h.vN, h.vN] at hab
    exact hp.inj j (h.injL hab)
  · intro v x' hx'
    rw [hvs] at hx'
    rcases setTets_some hx' with ⟨h1, h2⟩ | ⟨w, x, h1, h2, h3⟩
    · right
      refine ⟨x', h2, rfl, ?_⟩
      intro k hk t i ht hv
      obtain ⟨j, rfl, rfl⟩ := hC k t hk ht
      obtain ⟨b, hb⟩ := vtx j i
      obtain ⟨w, hw⟩ := hall (p.old j b)
      exact h1 _ hw (by rw [← hb, hv])
    · left
      obtain ⟨h4, h5⟩ := firstN _ h1
      rw [h3]
      exact ⟨h4, h5⟩
  · intro v x hx
    rw [hvs]
    obtain ⟨w, hw⟩ := setTets_keep Lst hx
    exact ⟨_, hw⟩
  · intro k hk t a ht
    obtain ⟨j, rfl, rfl⟩ := hN k t hk ht
    rw [h.vN]
    have hex : L (p.new j a) = GHOST ∨ ∃ x, m.vertices.get (L (p.new j a)) = some x := by
      by_cases ho : ∃ i b, L (p.new j a) = L (p.old i b)
      · obtain ⟨i, b, hb⟩ := ho
        rw [hb, ← h.vO i b]
        exact live _ _ _ ((h.memC _).2 ⟨i, rfl⟩) (h.getO i)
      · exact .inr (hadd _ ho j a rfl)
    rcases hex with h1 | ⟨x, h1⟩
    · exact .inl h1
    · right
      obtain ⟨w0, hw0⟩ := setTets_keep Lst h1
      rcases setTets_some hw0 with ⟨h2, -⟩ | ⟨w, y, h2, h3, h4⟩
      · obtain ⟨w, hw⟩ := hall (p.new j a)
        exact absurd rfl (h2 _ hw)
      · obtain ⟨-, t', h6, h7⟩ := firstN _ h2
        refine ⟨_, t', by rw [hvs]; exact hw0, ?_, ?_⟩
        · rw [h4]; exact h6
        · rw [h4]; exact h7
  · intro k t d hk ht
    obtain ⟨j, rfl, rfl⟩ := hN k t hk ht
    rw [h.edgeN]
    exact enew j d
  · intro k t e k' t' e' hk hk' ht ht' he
    obtain ⟨j, rfl, rfl⟩ := hN k t hk ht
    obtain ⟨j', rfl, rfl⟩ := hN k' t' hk' ht'
    rw [h.triN, h.triN] at he
    obtain ⟨h1, h2⟩ := hp.tin j e j' e' (map3_inj h.injL he)
    exact ⟨by rw [h1], h2⟩
  · rintro ⟨k, d⟩ t k' u e hk ht hadj hu hk' he
    obtain ⟨j, rfl, rfl⟩ := hN k t hk ht
    rw [h.triN] at he
    rcases adjN j d hadj with h1 | ⟨i, c, h1, h2⟩
    · exact h.tnew j d h1 k' u e hk' hu he
    · -- an outer face whose neighbour is new: impossible, but also covered by uniqueness
      have e1 : p.ntgt i c = (j, d) := h2.symm
      have h3 := hp.tgt_tri i c h1
      rw [e1] at h3
      have h4 := h.triO i c
      rw [← h3] at h4
      have := hm.tunique (idO i) (tO i) (toPerm (rot i) c) k' u e (h.getO i) hu (by rw [he, h4])
      exact hk' ((h.memC _).2 ⟨i, this.1⟩)
  · intro k t e k' t' e' hk hk' ht ht' he
    obtain ⟨j, rfl, rfl⟩ := hN k t hk ht
    obtain ⟨j', rfl, rfl⟩ := hN k' t' hk' ht'
    rw [h.edgeN, h.edgeN] at he
    exact h.rin hp (map2_inj h.injL he)
  · intro k t d hk ht
    obtain ⟨j, rfl, rfl⟩ := hN k t hk ht
    rw [h.edgeN]
    rcases h.enew j d with ⟨i, c, h1⟩ | h1
    · left
      exact ⟨idO i, tO i, toPerm (rot i) c, (h.memC _).2 ⟨i, rfl⟩, h.getO i, by rw [h.edgeO, h1]⟩
    · exact .inr h1
  · intro k t e hk ht
    obtain ⟨i, rfl, rfl⟩ := hC k t hk ht
    obtain ⟨c, rfl⟩ := rel (rot i) e
    rw [h.edgeO]
    rcases h.eold i c with ⟨j, d, h1⟩ | h1
    · left
      exact ⟨idN j, tN j, d, (h.memN _).2 ⟨j, rfl⟩, h.getN j, by rw [h.edgeN, h1]⟩
    · by_cases hx : ∃ j d, pedge (p.new j) d = pedge (p.old i) c
      · left
        obtain ⟨j, d, h2⟩ := hx
        exact ⟨idN j, tN j, d, (h.memN _).2 ⟨j, rfl⟩, h.getN j, by rw [h.edgeN, h2]⟩
      · right
        intro k' t' e' ht' he'
        by_cases hk' : k' ∈ N
        · obtain ⟨j, rfl, rfl⟩ := hN k' t' hk' ht'
          rw [h.edgeN] at he'
          exact hx ⟨j, e', map2_inj h.injL he'⟩
        · obtain ⟨hk2, u, hu, rfl⟩ := (h.surgery hp).old hk' ht'
          exact h1 k' u e' hk2 hu he'
  · rintro ⟨k, e⟩ t t' hk ht ha ht'
    obtain ⟨i, rfl, rfl⟩ := hC k t hk ht
    obtain ⟨c, rfl⟩ := rel (rot i) e
    have hc : p.oin i (face c) = false := by
      cases hcc : p.oin i (face c) with
      | false => rfl
      | true => exact absurd (h.inC i c hcc) ha
    rw [h.moved i c hc] at ht' ⊢
    rw [h.getN] at ht'
    cases ht'
    simp only
    rw [h.lockO _ _ (hp.tgt_out i c hc), hp.src_tgt i c hc]
    congr 1
    simp only
    rw [face_eq, face_eq, perms_toPerm, perms_toPerm, ← face_eq, ← face_eq, face_turnCode]
  · rintro ⟨k, d⟩ t t' hk ht hadj ht'
    obtain ⟨j, rfl, rfl⟩ := hN k t hk ht
    simp only at hadj ht' ⊢
    cases hd : p.nin j (face d) with
    | some y =>
      obtain ⟨y', hy', h1, h2, h3⟩ := hp.glue j d y hd
      rw [h.adjI hd] at ht' ⊢
      rw [h.getN] at ht'
      cases ht'
      rw [h.lockI j (face d) (by rw [hd]; simp)]
      exact h.lockI _ _ (by
        intro hn
        rw [Option.mem_def] at hy'
        rw [hn] at hy'
        simp at hy')
    | none =>
      -- the neighbour of an outer face is not new
      exfalso
      rcases adjN j d hadj with h1 | ⟨i, c, h1, h2⟩
      · exact h1 hd
      · have e1 : p.ntgt i c = (j, d) := h2.symm
        have h3 := h.adjO hp h1
        rw [e1] at h3
        simp only at h3
        rw [h3] at hadj
        have h4 := h.outC i c h1
        obtain ⟨u, hu, -⟩ := hm.adj _ _ (toPerm (rot i) c) (h.getO i)
        obtain ⟨j', hj'⟩ := (h.memN _).1 hadj
        have := h.fresh j' (hj' ▸ h4)
        rw [← hj', hu] at this
        simp at this
  · intro ht s w hw
    by_cases h1 : ∃ k t, k ∈ N ∧ m'.tets.get k = some t ∧ HasKey t s
    · left
      obtain ⟨w', t, -, h3, h4, h5⟩ := htri.new ht s h1
      rw [hw] at h5
      cases h5
      exact ⟨t, h3, h4⟩
    · by_cases h2 : ∃ k t, k ∈ C ∧ m.tets.get k = some t ∧ HasKey t s
      · rw [htri.gone ht s h1 h2] at hw
        simp at hw
      · right
        rw [htri.keep ht s h1 h2] at hw
        refine ⟨hw, ?_⟩
        intro k hk t e htk he
        exact h2 ⟨k, t, hk, htk, (hasKey_iff_tri (hm.distinct k t htk) s).2 ⟨e, he⟩⟩
  · intro ht k hk t e htk
    have hinj : Function.Injective t.vertices := by
      obtain ⟨j, rfl, rfl⟩ := hN k t hk htk
      intro a b hab
      rw [h.vN, h.vN] at hab
      exact hp.inj j (h.injL hab)
    obtain ⟨w, -, -, -, -, h5⟩ := htri.new ht (triKey (t.tri e))
      ⟨k, t, hk, htk, (hasKey_iff_tri hinj _).2 ⟨e, rfl⟩⟩
    exact ⟨w, h5⟩
  · intro ht s w hw hno
    by_cases h1 : ∃ k t, k ∈ N ∧ m'.tets.get k = some t ∧ HasKey t s
    · obtain ⟨w', t, -, -, -, h5⟩ := htri.new ht s h1
      exact ⟨w', h5⟩
    · refine ⟨w, ?_⟩
      rw [htri.keep ht s h1 ?_, hw]
      rintro ⟨k, t, hk, htk, hh⟩
      obtain ⟨e, he⟩ := (hasKey_iff_tri (hm.distinct k t htk) s).1 hh
      exact hno k hk t e htk he

/-- Edge ids, given the changes to the edge records. -/
theorem edges (h : Real p m m' C N A idO idN rot tO tN L) (hp : p.OK) (hm : ConsistentT m)
    (enew : ∀ j d, ∃ ue, m'.edges.get ((tN j).undirEdge d) = some ue ∧
      ue.vertices = sorted2 (map2 L (pedge (p.new j) d)))
    (keep : ∀ e ue, m.edges.get e = some ue → m'.edges.get e = some ue ∨
      ∀ k t i, k ∉ C → m.tets.get k = some t → t.edges i ≠ e)
    (orig : ∀ e ue, m'.edges.get e = some ue → m.edges.get e = some ue ∨
      ∃ j d, e = (tN j).undirEdge d ∧ ¬ ∃ i c, pedge (p.old i) c = pedge (p.new j) d)
    (two : ∀ j d j' d', (¬ ∃ i c, pedge (p.old i) c = pedge (p.new j) d) →
      sorted2 (map2 L (pedge (p.new j) d)) = sorted2 (map2 L (pedge (p.new j') d')) →
      (tN j).undirEdge d = (tN j').undirEdge d')
    (gone : ∀ i c, (¬ ∃ j d, pedge (p.new j) d = pedge (p.old i) c) →
      m'.edges.get ((tO i).undirEdge (toPerm (rot i) c)) = none) :
    (∀ k t i ue, k ∉ C → m.tets.get k = some t → m.edges.get (t.edges i) = some ue →
      ∃ ue', m'.edges.get (t.edges i) = some ue' ∧ ue'.vertices = ue.vertices) ∧
    (∀ e e' ue ue', m'.edges.get e = some ue → m'.edges.get e' = some ue' →
      ue.vertices = ue'.vertices → e = e') ∧
    (∀ e ue, m'.edges.get e = some ue → ∃ k t i, m'.tets.get k = some t ∧ t.undirEdge i = e) := by
  -- a new edge is different from all old ones
  have hon : ∀ e ue j d, m.edges.get e = some ue → (¬ ∃ i c, pedge (p.old i) c = pedge (p.new j) d) →
      ue.vertices ≠ sorted2 (map2 L (pedge (p.new j) d)) := by
    intro e ue j d hue hno he
    obtain ⟨k, t, i, ht, hi⟩ := hm.eused e ue hue
    obtain ⟨ue', h1, h2⟩ := hm.eptr k t i ht
    rw [hi, hue] at h1
    cases h1
    rcases h.enew j d with h3 | h3
    · exact hno h3
    · rw [he, sorted2_eq_iff] at h2
      rcases h2 with h2 | h2
      · exact h3 k t i ht h2
      · refine h3 k t (twin i) ht ?_
        rw [Surgery.edge_twin, h2]
        rfl
  have huniq : ∀ e e' ue ue', m'.edges.get e = some ue → m'.edges.get e' = some ue' →
      ue.vertices = ue'.vertices → e = e' := by
    intro e e' ue ue' he he' hv
    rcases orig e ue he with h1 | ⟨j, d, rfl, h2⟩ <;> rcases orig e' ue' he' with h1' | ⟨j', d', rfl, h2'⟩
    · exact hm.eunique e e' ue ue' h1 h1' hv
    · obtain ⟨ue2, h3, h4⟩ := enew j' d'
      rw [he'] at h3
      cases h3
      exact absurd (hv.trans h4) (hon e ue j' d' h1 h2')
    · obtain ⟨ue2, h3, h4⟩ := enew j d
      rw [he] at h3
      cases h3
      exact absurd (hv.symm.trans h4) (hon e' ue' j d h1' h2)
    · obtain ⟨ue2, h3, h4⟩ := enew j d
      rw [he] at h3
      cases h3
      obtain ⟨ue2, h3, h4'⟩ := enew j' d'
      rw [he'] at h3
      cases h3
      exact two j d j' d' h2 (by rw [← h4, ← h4', hv])
  refine ⟨?_, huniq, ?_⟩
  · intro k t i ue hk ht hue
    rcases keep _ ue hue with h1 | h1
    · exact ⟨ue, h1, rfl⟩
    · exact absurd rfl (h1 k t i hk ht)
  · intro e ue he
    rcases orig e ue he with h1 | ⟨j, d, rfl, -⟩
    · obtain ⟨k, t, i, ht, hi⟩ := hm.eused e ue h1
      by_cases hk : k ∈ C
      · obtain ⟨a, rfl⟩ := (h.memC k).1 hk
        rw [h.getO] at ht
        cases ht
        obtain ⟨c, rfl⟩ : ∃ c, i = toPerm (rot a) c := ⟨permInv (rot a) i, (toPerm_permInv _ _).symm⟩
        by_cases hex : ∃ j d, pedge (p.new j) d = pedge (p.old a) c
        · obtain ⟨j, d, hjd⟩ := hex
          obtain ⟨ue', h2, h3⟩ := enew j d
          obtain ⟨ue2, h4, h5⟩ := hm.eptr _ _ (toPerm (rot a) c) (h.getO a)
          rw [hi, h1] at h4
          cases h4
          refine ⟨_, _, d, h.getN j, ?_⟩
          refine huniq _ _ ue' ue h2 he ?_
          rw [h3, h5, h.edgeO, hjd]
        · have := gone a c hex
          rw [hi, he] at this
          simp at this
      · have := ((h.surgery hp).new hk ht).2
        exact ⟨k, _, i, this, hi⟩
    · exact ⟨_, _, d, h.getN j, rfl⟩

end Real
end Pat
end Tet
