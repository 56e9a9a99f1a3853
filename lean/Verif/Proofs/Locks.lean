import Verif.Proofs.Cavity

/-!
# Changing flags keeps a mesh consistent
-/

namespace Tet
open Spec
variable {P V T : Type}

/-- The same except for the flags (and the value). -/
def SameShape (t t' : Tet T) : Prop := t'.vertices = t.vertices ∧ t'.opp = t.opp ∧ t'.edges = t.edges

theorem SameShape.funs {t t' : Tet T} (h : SameShape t t') (e : Code) :
    t'.adj e = t.adj e ∧ t'.tri e = t.tri e ∧ t'.edge e = t.edge e ∧ t'.first e = t.first e ∧
      t'.undirEdge e = t.undirEdge e ∧ t'.second e = t.second e ∧ t'.third e = t.third e := by
  obtain ⟨h1, h2, h3⟩ := h
  simp [Tet.adj, Tet.tri, Tet.edge, Tet.first, Tet.second, Tet.third, Tet.undirEdge, h1, h2, h3]

theorem ConsistentT.reflag {m m' : Mesh P V T} (hm : ConsistentT m)
    (hv : m'.vertices = m.vertices) (hT : m'.tets.WF) (htr : m'.trackTriMap = m.trackTriMap)
    (htm : m'.triMap = m.triMap) (hE : m'.edges.WF)
    (he : ∀ e, (m.edges.get e = none ↔ m'.edges.get e = none) ∧
      ∀ ue ue', m.edges.get e = some ue → m'.edges.get e = some ue' → ue'.vertices = ue.vertices)
    (hn : ∀ k, m.tets.get k = none ↔ m'.tets.get k = none)
    (hs : ∀ k t t', m.tets.get k = some t → m'.tets.get k = some t' → SameShape t t')
    (hl : LocksT m'.tets.get) : ConsistentT m' := by
  have get : ∀ {k t}, m.tets.get k = some t → ∃ t', m'.tets.get k = some t' ∧ SameShape t t' := by
    intro k t ht
    cases h : m'.tets.get k with
    | none => rw [(hn k).2 h] at ht; cases ht
    | some t' => exact ⟨t', rfl, hs k t t' ht h⟩
  have get' : ∀ {k t'}, m'.tets.get k = some t' → ∃ t, m.tets.get k = some t ∧ SameShape t t' := by
    intro k t' ht
    cases h : m.tets.get k with
    | none => rw [(hn k).1 h] at ht; cases ht
    | some t => exact ⟨t, rfl, hs k t t' h ht⟩
  have eget : ∀ {e ue}, m.edges.get e = some ue → ∃ ue', m'.edges.get e = some ue' ∧ ue'.vertices = ue.vertices := by
    intro e ue h
    cases h' : m'.edges.get e with
    | none => rw [(he e).1.2 h'] at h; cases h
    | some ue' => exact ⟨ue', rfl, (he e).2 ue ue' h h'⟩
  have eget' : ∀ {e ue'}, m'.edges.get e = some ue' → ∃ ue, m.edges.get e = some ue ∧ ue'.vertices = ue.vertices := by
    intro e ue' h
    cases h' : m.edges.get e with
    | none => rw [(he e).1.1 h'] at h; cases h
    | some ue => exact ⟨ue, rfl, (he e).2 ue ue' h' h⟩
  have ring : ∀ {a b}, RingT m.tets.get a b → RingT m'.tets.get a b := by
    intro a b h
    induction h with
    | refl => exact .refl _
    | @step b t _ hb ih =>
      obtain ⟨t', h1, h2⟩ := get hb
      rw [← (h2.funs _).1]
      exact .step ih h1
    | @back c t _ hb ih =>
      obtain ⟨t', h1, h2⟩ := get hb
      rw [← (h2.funs _).1] at ih
      exact .back ih h1
  refine ⟨⟨hv ▸ hm.stored.1, hE, hT⟩, ?_, ?_, ?_, ?_, ?_, ?_, ?_, ?_, ?_, hl, ?_, ?_⟩
  · intro k t' e ht'
    obtain ⟨t, ht, hst⟩ := get' ht'
    obtain ⟨h1, h2, h3, h4, h5, h6, h7⟩ := hst.funs e
    obtain ⟨u, u1, u2, u3⟩ := hm.adj k t e ht
    obtain ⟨u', u4, u5⟩ := get u1
    rw [h1, h4, h6, h7]
    exact ⟨u', u4, (u5.funs _).1.trans u2, (u5.funs _).2.1.trans u3⟩
  · intro k t' ht'
    obtain ⟨t, ht, hst⟩ := get' ht'
    rw [hst.1]
    exact hm.distinct k t ht
  · intro v x hx
    rw [hv] at hx
    rcases hm.vref v x hx with h | ⟨t, h1, h2⟩
    · exact .inl h
    · obtain ⟨t', h3, h4⟩ := get h1
      exact .inr ⟨t', h3, (h4.funs _).2.2.2.1.trans h2⟩
  · intro k t' i ht'
    obtain ⟨t, ht, hst⟩ := get' ht'
    rw [hst.1, hv]
    rcases hm.vlive k t i ht with h | ⟨x, u, h1, h2, h3⟩
    · exact .inl h
    · obtain ⟨u', h4, h5⟩ := get h2
      exact .inr ⟨x, u', h1, h4, (h5.funs _).2.2.2.1.trans h3⟩
  · intro k t' e ht'
    obtain ⟨t, ht, hst⟩ := get' ht'
    obtain ⟨h1, h2, h3, h4, h5, -⟩ := hst.funs e
    obtain ⟨ue, u1, u2⟩ := hm.eptr k t e ht
    obtain ⟨ue', u3, u4⟩ := eget u1
    rw [h5, h3]
    exact ⟨ue', u3, u4.trans u2⟩
  · intro e e' ue ue' h1 h2 h3
    obtain ⟨u, u1, u2⟩ := eget' h1
    obtain ⟨u', u3, u4⟩ := eget' h2
    exact hm.eunique e e' u u' u1 u3 (by rw [← u2, ← u4, h3])
  · intro e ue h
    obtain ⟨u, u1, -⟩ := eget' h
    obtain ⟨k, t, i, h1, h2⟩ := hm.eused e u u1
    obtain ⟨t', h3, h4⟩ := get h1
    exact ⟨k, t', i, h3, (h4.funs i).2.2.2.2.1.trans h2⟩
  · intro k t' e k2 t2' e2 h h2 htri
    obtain ⟨t, ht, hst⟩ := get' h
    obtain ⟨t2, ht2, hst2⟩ := get' h2
    rw [(hst.funs e).2.1, (hst2.funs e2).2.1] at htri
    exact hm.tunique k t e k2 t2 e2 ht ht2 htri
  · intro k t' e k2 t2' e2 h h2 hedge
    obtain ⟨t, ht, hst⟩ := get' h
    obtain ⟨t2, ht2, hst2⟩ := get' h2
    rw [(hst.funs e).2.2.1, (hst2.funs e2).2.2.1] at hedge
    exact ring (hm.ring k t e k2 t2 e2 ht ht2 hedge)
  · intro h s w hw
    rw [htr] at h
    rw [htm] at hw
    obtain ⟨t, h1, h2⟩ := hm.tsound h s w hw
    obtain ⟨t', h3, h4⟩ := get h1
    exact ⟨t', h3, by rw [(h4.funs _).2.1]; exact h2⟩
  · intro h k t' e ht'
    rw [htr] at h
    obtain ⟨t, ht, hst⟩ := get' ht'
    rw [(hst.funs e).2.1, htm]
    exact hm.tcomplete h k t e ht

/-- Locking both sides of a triangle. -/
theorem ConsistentT.lockTri {m : Mesh P V T} (hm : ConsistentT m) {w w' : Walker} (h : m.toAdjAe w = some w') :
    ∃ m1 m2, m.modTet w.tet (·.setLocked (face w.edge)) = some m1 ∧
      m1.modTet w'.tet (·.setLocked (face w'.edge)) = some m2 ∧ ConsistentT m2 ∧ TStep m m2 ∧
      (∀ k, m.tets.get k = none ↔ m2.tets.get k = none) ∧
      ∀ k t t2, m.tets.get k = some t → m2.tets.get k = some t2 → SameShape t t2 ∧
        ∀ f, t2.flags.locked f = (t.flags.locked f || decide ((k, f) = fid w) || decide ((k, f) = fid w')) := by
  have hwl : (m.tets.get w.tet).isSome := by
    cases h' : m.tets.get w.tet with
    | none => simp [Mesh.toAdjAe, h'] at h
    | some _ => rfl
  obtain ⟨w2, k1, k2, k3, k4, k5⟩ := toAdjAe_live hm hwl
  rw [h] at k1
  cases k1
  obtain ⟨t, ht⟩ := Option.isSome_iff_exists.1 hwl
  obtain ⟨t', ht'⟩ := Option.isSome_iff_exists.1 k3
  obtain ⟨m1, e1, s1, g1⟩ := m.modTet_step (·.setLocked (face w.edge)) ht
  have ht1 : m1.tets.get w'.tet = some t' := by rw [g1, if_neg k4, ht']
  obtain ⟨m2, e2, s2, g2⟩ := m1.modTet_step (·.setLocked (face w'.edge)) ht1
  have hst := s1.trans s2
  have hn : ∀ k, m.tets.get k = none ↔ m2.tets.get k = none := by
    intro k
    rw [g2, g1]
    split_ifs with c1 c2
    · simp [c1, ht']
    · simp [c2, ht]
    · rfl
  have hl : ∀ k t t2, m.tets.get k = some t → m2.tets.get k = some t2 → SameShape t t2 ∧
      ∀ f, t2.flags.locked f = (t.flags.locked f || decide ((k, f) = fid w) || decide ((k, f) = fid w')) := by
    intro k u u2 hu hu2
    rw [g2, g1] at hu2
    split_ifs at hu2 with c1 c2
    · subst c1
      rw [ht'] at hu
      cases hu
      cases hu2
      refine ⟨⟨rfl, rfl, rfl⟩, fun f => ?_⟩
      by_cases hf : f = face w'.edge <;> simp [Tet.setLocked, Function.update_apply, hf, fid, k4]
    · subst c2
      rw [ht] at hu
      cases hu
      cases hu2
      refine ⟨⟨rfl, rfl, rfl⟩, fun f => ?_⟩
      by_cases hf : f = face w.edge <;> simp [Tet.setLocked, Function.update_apply, hf, fid, c1]
    · rw [hu] at hu2
      cases hu2
      refine ⟨⟨rfl, rfl, rfl⟩, fun f => ?_⟩
      simp [fid, c1, c2]
  have hmap : ∀ {k u2}, m2.tets.get k = some u2 → ∃ u, m.tets.get k = some u := by
    intro k u2 hu2
    cases hu : m.tets.get k with
    | none => rw [(hn k).1 hu] at hu2; cases hu2
    | some u => exact ⟨u, rfl⟩
  refine ⟨m1, m2, e1, e2, ?_, hst, hn, hl⟩
  refine hm.reflag (by rw [hst.eq]) (hst.wf hm.stored.2.2) (by rw [hst.eq]) (by rw [hst.eq]) (by rw [hst.eq]; exact hm.stored.2.1)
    (fun e => by rw [hst.eq]; exact ⟨Iff.rfl, fun _ _ h1 h2 => by rw [h1] at h2; cases h2; rfl⟩) hn
    (fun k u u2 h1 h2 => (hl k u u2 h1 h2).1) ?_
  intro k u2 v2 e hu2 hv2
  obtain ⟨u, hu⟩ := hmap hu2
  obtain ⟨hsu, hlu⟩ := hl k u u2 hu hu2
  rw [(hsu.funs e).1] at hv2 ⊢
  obtain ⟨v, hv⟩ := hmap hv2
  rw [(hl _ v v2 hv hv2).2, hlu]
  have hlock := hm.locks k u v e hu hv
  have hac : fid (u.adj e) = across m (k, face e) := toAdj_across (w := ⟨k, e⟩) (by simp [Mesh.toAdj, hu])
  have hx := (across_live hm (x := (k, face e)) (by simp [hu])).2.2
  have i1 : ((u.adj e).tet, face (u.adj e).edge) = fid w ↔ (k, face e) = fid w' := by
    rw [show ((u.adj e).tet, face (u.adj e).edge) = across m (k, face e) from hac]
    constructor
    · intro h'; rw [k2, ← h', hx]
    · intro h'; rw [h', k5]
  have i2 : ((u.adj e).tet, face (u.adj e).edge) = fid w' ↔ (k, face e) = fid w := by
    rw [show ((u.adj e).tet, face (u.adj e).edge) = across m (k, face e) from hac]
    constructor
    · intro h'; rw [← k5, ← h', hx]
    · intro h'; rw [h', k2]
  rw [hlock, decide_eq_decide.2 i1, decide_eq_decide.2 i2, Bool.or_assoc, Bool.or_assoc]
  congr 1
  exact Bool.or_comm _ _

/-- Locking an edge. -/
theorem ConsistentT.lockEdge {m : Mesh P V T} (hm : ConsistentT m) (e : EId) (b : Bool) :
    ConsistentT { m with edges := m.edges.modify e fun ue => { ue with locked := b } } := by
  refine hm.reflag rfl hm.stored.2.2 rfl rfl (hm.stored.2.1.modify _ _) (fun e' => ?_) (fun k => Iff.rfl)
    (fun k t t' h h' => ?_) hm.locks
  · change (m.edges.get e' = none ↔ (m.edges.modify e _).get e' = none) ∧ ∀ ue ue', m.edges.get e' = some ue →
      (m.edges.modify e _).get e' = some ue' → _
    rw [IdMap.get_modify]
    split_ifs with h
    · subst h
      refine ⟨by simp, fun ue ue' h1 h2 => ?_⟩
      rw [h1] at h2
      cases h2
      rfl
    · exact ⟨Iff.rfl, fun ue ue' h1 h2 => by rw [h1] at h2; cases h2; rfl⟩
  · change m.tets.get k = some t' at h'
    rw [h] at h'
    cases h'
    exact ⟨rfl, rfl, rfl⟩

end Tet
