import Verif.Proofs.Rebuild

/-!
# Taking away the tets of a fan
-/

namespace Tet
open Spec
variable {P V T : Type}

/-- The tet at an edge of the path. -/
def fanTet (vt vb : VId) (e : VId × VId) : V4 := (e.2, vt, e.1, vb)

theorem rot_face {t : Tet T} (h : Function.Injective t.vertices) (e c : Code) : Rotation (t.tri e) (t.tri c) ↔ face c = face e := by
  have key : ∀ e c, firstIdx e = firstIdx c → secondIdx e = secondIdx c → c = e := by decide
  have eq : ∀ {a b : Code}, t.tri a = t.tri b → b = a := by
    intro a b hab
    simp only [Tet.tri, Prod.mk.injEq] at hab
    exact key a b (h hab.1) (h hab.2.1)
  constructor
  · rintro (h1 | h1 | h1)
    · rw [eq h1]
    · rw [eq (h1.trans (t.tri_nfe e).symm).symm, face_nfe]
    · rw [eq (h1.trans (t.tri_pfe e).symm).symm, face_pfe]
  · intro h1
    rcases (face_eq_iff e c).1 h1.symm with h2 | h2 | h2
    · exact .inl (by rw [h2])
    · exact .inr (.inl (by rw [h2]; exact t.tri_nfe e))
    · exact .inr (.inr (by rw [h2]; exact t.tri_pfe e))

/-- `for edge in &walker.undir_edges(self) { edge_map.insert(..) }` -/
theorem track_all (m : Mesh P V T) (f : Fin 6 → EId) (L : List (Fin 6)) (hL : ∀ i ∈ L, ∃ ue, m.edges.get (f i) = some ue) :
    ∀ em : Mesh.EdgeMap, ∃ em', L.foldlM (fun em i => m.trackEdge em (f i)) em = some em' ∧
      (∀ s i, em' s = some i → em s = some i ∨ ∃ ue, m.edges.get i = some ue ∧ sorted2 ue.vertices = s) ∧
      (∀ s, (∃ i, em s = some i) → ∃ i, em' s = some i) ∧
      (∀ i ∈ L, ∀ ue, m.edges.get (f i) = some ue → ∃ j, em' (sorted2 ue.vertices) = some j) := by
  induction L with
  | nil => exact fun em => ⟨em, rfl, fun s i h => .inl h, fun s h => h, by simp⟩
  | cons l L ih =>
    intro em
    obtain ⟨ue, hue⟩ := hL l (by simp)
    obtain ⟨em', h1, h2, h3, h4⟩ := ih (fun i hi => hL i (by simp [hi])) (Function.update em (sorted2 ue.vertices) (some (f l)))
    have up : ∀ s, (∃ i, em s = some i) → ∃ i, Function.update em (sorted2 ue.vertices) (some (f l)) s = some i := by
      intro s hs
      rw [Function.update_apply]
      split_ifs
      · exact ⟨_, rfl⟩
      · exact hs
    refine ⟨em', ?_, ?_, fun s hs => h3 s (up s hs), ?_⟩
    · simp only [List.foldlM_cons, Mesh.trackEdge, hue, Option.bind_eq_bind, Option.bind_some, pure]
      exact h1
    · intro s i hs
      rcases h2 s i hs with h5 | h5
      · rw [Function.update_apply] at h5
        split_ifs at h5 with h6
        · obtain rfl := Option.some.inj h5
          exact .inr ⟨ue, hue, h6.symm⟩
        · exact .inl h5
      · exact .inr h5
    · intro i hi ue' hue'
      rcases List.mem_cons.1 hi with rfl | hi
      · obtain rfl := Option.some.inj (hue.symm.trans hue')
        exact h3 _ ⟨_, Function.update_self _ _ _⟩
      · exact h4 i hi ue' hue'

/-- The mesh `m` after the tets at the edges `R` have been taken away.  With `gone`, the edge from `vt` to `vb` has been, too. -/
structure Drop (m : Mesh P V T) (vt vb : VId) (R : List (VId × VId)) (gone : Prop) (x : Mesh P V T) (em : Mesh.EdgeMap) : Prop where
  rest : { x with tets := m.tets, edges := m.edges, triMap := m.triMap } = m
  wfe : x.edges.WF
  wft : x.tets.WF
  live : ∀ j t, m.tets.get j = some t → (∀ e ∈ R, ¬ SameTet (fanTet vt vb e) (t.tet 0)) →
    ∃ t', x.tets.get j = some t' ∧ { t' with flags := t.flags } = t ∧
      ∀ c, t'.flags.locked (face c) = true ↔ t.flags.locked (face c) = true ∧ ∀ e ∈ R, ¬ Rotation (vt, e.2, e.1) (t.tri c)
  back : ∀ j t', x.tets.get j = some t' → ∃ t, m.tets.get j = some t ∧ ∀ e ∈ R, ¬ SameTet (fanTet vt vb e) (t.tet 0)
  tsound : ∀ s w, x.triMap s = some w → ∃ t, x.tets.get w.tet = some t ∧ triKey (t.tri w.edge) = s
  tc : ∀ k t e, x.tets.get k = some t → ∃ w, x.triMap (triKey (t.tri e)) = some w
  ekeep : ∀ i ue, x.edges.get i = some ue → ∃ ue0, m.edges.get i = some ue0 ∧ ue.vertices = ue0.vertices ∧
    (ue.locked = true ↔ ue0.locked = true ∧ ∀ e ∈ R, ue0.vertices ≠ sorted2 (e.2, vt) ∧ ue0.vertices ≠ sorted2 (vt, e.1))
  eall : ∀ i ue0, m.edges.get i = some ue0 → (∃ ue, x.edges.get i = some ue) ∨ gone ∧ ue0.vertices = sorted2 (vt, vb)
  egone : gone → ∀ i ue, x.edges.get i = some ue → ue.vertices ≠ sorted2 (vt, vb)
  emok : ∀ s i, em s = some i → ∃ ue, m.edges.get i = some ue ∧ ue.vertices = s
  emdone : ∀ e ∈ R, ∀ u ∈ list4 (fanTet vt vb e), ∀ v ∈ list4 (fanTet vt vb e), u ≠ v → ∃ i, em (sorted2 (u, v)) = some i
  size : x.tets.size + R.length = m.tets.size
  esize : x.edges.size ≤ m.edges.size

variable {m x : Mesh P V T} {vt vb : VId} {R : List (VId × VId)} {em : Mesh.EdgeMap}

theorem Drop.init (hm : Consistent m) (htr : m.trackTriMap = true) : Drop m vt vb [] False m (fun _ => none) := by
  have := hm.toT
  refine ⟨rfl, this.stored.2.1, this.stored.2.2, fun j t h _ => ⟨t, h, rfl, by simp⟩, fun j t h => ⟨t, h, by simp⟩, this.tsound htr, this.tcomplete htr,
    fun i ue h => ⟨ue, h, rfl, by simp⟩, fun i ue h => .inl ⟨ue, h⟩, fun h => h.elim, by simp, by simp, rfl, le_rfl⟩

theorem tet_flags {t t' : Tet T} (h : { t' with flags := t.flags } = t) (c : Code) : t'.tri c = t.tri c ∧ t'.tet c = t.tet c ∧ t'.adj c = t.adj c ∧
    t'.undirEdge c = t.undirEdge c ∧ t'.edge c = t.edge c ∧ t'.opp = t.opp ∧ t'.vertices = t.vertices ∧ t'.value = t.value := by
  rw [← h]
  exact ⟨rfl, rfl, rfl, rfl, rfl, rfl, rfl, rfl⟩

theorem Drop.step (hm : Consistent m) (htr : m.trackTriMap = true) (D : Drop m vt vb R False x em) (fuel : Nat) (spine : Option VId) (e : VId × VId)
    (hfan : HasTet m (fanTet vt vb e)) (hnew : ∀ e' ∈ R, ¬ SameTet (fanTet vt vb e') (fanTet vt vb e))
    (hadj : ∀ o, HasTet m (vt, e.2, e.1, o) → ∀ e' ∈ e :: R, ¬ SameTet (fanTet vt vb e') (vt, e.2, e.1, o)) :
    ∃ x' em', Mesh.capDrop fuel vt spine (x, em) e = some (x', em') ∧ Drop m vt vb (e :: R) (some e.2 = spine) x' em' := by
  obtain ⟨v0, v1⟩ := e
  have hT := hm.toT
  have trackx : x.trackTriMap = true := (congrArg (fun z => z.trackTriMap) D.rest).trans htr
  have old : ∀ {j t'}, x.tets.get j = some t' → ∃ t, m.tets.get j = some t ∧ { t' with flags := t.flags } = t ∧
      (∀ e ∈ R, ¬ SameTet (fanTet vt vb e) (t.tet 0)) := by
    intro j t' h
    obtain ⟨t, h1, h2⟩ := D.back j t' h
    obtain ⟨t'', h3, h4, -⟩ := D.live j t h1 h2
    obtain rfl := Option.some.inj (h3.symm.trans h)
    exact ⟨t, h1, h4, h2⟩
  have distx : DistinctT x.tets.get := by
    intro j t' h
    obtain ⟨t, h1, h2, -⟩ := old h
    rw [(tet_flags h2 0).2.2.2.2.2.2.1]
    exact hT.distinct j t h1
  -- the tet
  obtain ⟨w, hw⟩ := hfan
  obtain ⟨t, ht, htw⟩ := Mesh.tet4_iff.1 hw
  have hsame : SameTet (fanTet vt vb (v0, v1)) (t.tet 0) := by
    rw [← htw]
    exact codes_same _ _ _
  obtain ⟨t', ht', hft, -⟩ := D.live w.tet t ht (fun e' he' hs => hnew e' he' (EvenRearr.trans hs (EvenRearr.symm hsame)))
  have htri : t.tri w.edge = (v1, vt, v0) := by
    simp only [fanTet, Tet.tet, Prod.mk.injEq] at htw
    simp only [Tet.tri, htw.1, htw.2.1, htw.2.2.1]
  have look : x.walkerFromTri fuel (v1, vt, v0) = some (some w) := by
    rcases lookup_tri trackx D.tsound distx (v1, vt, v0) with ⟨h1, -⟩ | ⟨w', u', h1, h2, h3⟩
    · obtain ⟨w', hw'⟩ := D.tc w.tet t' w.edge ht'
      rw [(tet_flags hft _).1, htri, h1] at hw'
      cases hw'
    · obtain ⟨u, g1, g2, -⟩ := old h2
      obtain ⟨g3, g4⟩ := hT.tunique _ t w.edge _ u w'.edge ht g1 (by rw [← (tet_flags g2 _).1, h3, htri])
      rw [h1 fuel]
      obtain ⟨a, b⟩ := w
      obtain ⟨c, d⟩ := w'
      obtain rfl := g3
      obtain rfl := g4
      rfl
  -- its neighbour
  obtain ⟨u, hu, -, hu'⟩ := hT.adj _ t w.edge ht
  set o := t.adj w.edge with ho
  have hutri : u.tri o.edge = (vt, v1, v0) := by
    simp only [Tet.tri, Prod.mk.injEq] at htri
    rw [hu', htri.1, htri.2.1, htri.2.2]
  have hut : ∀ e' ∈ (v0, v1) :: R, ¬ SameTet (fanTet vt vb e') (u.tet 0) := by
    intro e' he' hs
    have h1 : HasTet m (vt, v1, v0, u.fourth o.edge) := by
      have := hasTet_at hu o.edge
      simp only [Tet.tet, Tet.tri, Prod.mk.injEq] at this hutri
      rwa [hutri.1, hutri.2.1, hutri.2.2] at this
    refine hadj _ h1 e' he' (EvenRearr.trans hs ?_)
    have h2 := codes_same u 0 o.edge
    simp only [Tet.tet, Tet.tri, Prod.mk.injEq] at h2 hutri
    rw [hutri.1, hutri.2.1, hutri.2.2] at h2
    exact h2
  obtain ⟨u', hux, huf, hul⟩ := D.live o.tet u hu (fun e' he' => hut e' (by simp [he']))
  have hok : o.tet ≠ w.tet := by
    intro h
    rw [h, ht] at hu
    obtain rfl := Option.some.inj hu
    exact hut (v0, v1) (by simp) hsame
  set a := t.opp (face w.edge) with ha
  have hat : a.tet = o.tet := (Tet.adj_tet t w.edge).symm
  have haf : face a.edge = face o.edge := (Tet.face_adj t w.edge).symm
  -- the edges
  have hedge : ∀ c, ∃ ue, m.edges.get (t.undirEdge c) = some ue ∧ ue.vertices = sorted2 (t.edge c) := fun c => hT.eptr _ t c ht
  have hedgex : ∀ c, ∃ ue, x.edges.get (t.undirEdge c) = some ue ∧ ue.vertices = sorted2 (t.edge c) := by
    intro c
    obtain ⟨ue, h1, h2⟩ := hedge c
    obtain ⟨ue', h3⟩ := (D.eall _ ue h1).resolve_right (fun h => h.1)
    obtain ⟨ue0, h4, h5, -⟩ := D.ekeep _ ue' h3
    obtain rfl := Option.some.inj (h4.symm.trans h1)
    exact ⟨ue', h3, h5.trans h2⟩
  let clr : UEdge → UEdge := fun ue => { ue with locked := false }
  let i1 := t.undirEdge w.edge
  let i2 := t.undirEdge w.nfe.edge
  let E2 := (x.edges.modify i1 clr).modify i2 clr
  have getE2 : ∀ i, E2.get i = if i = i1 ∨ i = i2 then (x.edges.get i).map clr else x.edges.get i := by
    intro i
    simp only [E2, IdMap.get_modify]
    by_cases h1 : i = i1
    · by_cases h2 : i = i2
      · simp only [← h1, ← h2, if_true, or_self, Option.map_map]
        congr 1
      · simp [h1, h2]
        simp [← h1, h2]
    · by_cases h2 : i = i2
      · simp [h1, h2]
        simp [← h2, h1]
      · simp [h1, h2]
  have hE2 : ∀ c, ∃ ue, E2.get (t.undirEdge c) = some ue ∧ ue.vertices = sorted2 (t.edge c) := by
    intro c
    obtain ⟨ue, h1, h2⟩ := hedgex c
    rw [getE2]
    split_ifs
    · exact ⟨clr ue, by rw [h1]; rfl, h2⟩
    · exact ⟨ue, h1, h2⟩
  have ev1 : t.edge w.edge = (v1, vt) := by
    simp only [Tet.tri, Prod.mk.injEq] at htri
    simp only [Tet.edge, htri.1, htri.2.1]
  have ev2 : t.edge w.nfe.edge = (vt, v0) := by
    have := t.tri_nfe w.edge
    simp only [Tet.tri, Prod.mk.injEq] at htri this
    simp only [Walker.nfe, Tet.edge, this.1, this.2.1, htri.2.1, htri.2.2]
  -- the code
  let T2 := (x.tets.modify w.tet (·.clearLocked [face w.edge])).modify o.tet (·.clearLocked [face a.edge])
  have getT2 : ∀ j, T2.get j = if j = w.tet then some (t'.clearLocked [face w.edge]) else
      if j = o.tet then some (u'.clearLocked [face a.edge]) else x.tets.get j := by
    intro j
    simp only [T2, IdMap.get_modify]
    by_cases h1 : j = w.tet
    · subst h1
      simp [hok.symm, ht']
    · by_cases h2 : j = o.tet
      · subst h2
        simp [h1, hux]
      · simp [h1, h2]
  let x2 : Mesh P V T := { x with edges := E2, tets := T2 }
  have hcodes : ∀ i, ∃ c, t.undirEdges w.edge i = t.undirEdge c := by
    intro i
    fin_cases i
    · exact ⟨_, rfl⟩
    · exact ⟨_, rfl⟩
    · exact ⟨_, rfl⟩
    · exact ⟨_, rfl⟩
    · exact ⟨_, rfl⟩
    · exact ⟨_, rfl⟩
  obtain ⟨em', k1, k2, k3, k4⟩ := track_all x2 (t.undirEdges w.edge) [0, 1, 2, 3, 4, 5] (fun i _ => by
    obtain ⟨c, hc⟩ := hcodes i
    obtain ⟨ue, h1, -⟩ := hE2 c
    exact ⟨ue, by rw [hc]; exact h1⟩) em
  let i3 := t.undirEdge (w.perm P1320).edge
  have ev3 : t.edge (w.perm P1320).edge = (vt, vb) := by
    have := tet4_perm hw P1320
    obtain ⟨_, g1, g2⟩ := Mesh.tet4_iff.1 this
    simp only [Walker.perm] at g1
    obtain rfl := Option.some.inj (g1.symm.trans ht)
    simp only [Tet.tet, Prod.mk.injEq] at g2
    simp only [Tet.edge, g2.1, g2.2.1]
    rfl
  have hE3 : ∃ E3 : IdMap UEdge, (if some v1 = spine then x2.removeEdge i3 else some x2) = some { x2 with edges := E3 } ∧ E3.WF ∧
      (∀ i, E3.get i = if some v1 = spine ∧ i = i3 then none else E2.get i) ∧ E3.size ≤ E2.size := by
    have wf2 : E2.WF := (D.wfe.modify _ _).modify _ _
    by_cases hs : some v1 = spine
    · obtain ⟨E3, g1, g2, g3, g4, -⟩ := IdMap.remove_spec i3 wf2
      refine ⟨E3, ?_, g2, ?_, by omega⟩
      · rw [if_pos hs]
        simp only [Mesh.removeEdge, x2, g1, Option.bind_eq_bind, Option.bind_some]
        rfl
      · intro i
        rw [g3]
        simp [hs]
    · refine ⟨E2, by rw [if_neg hs], wf2, fun i => by simp [hs], le_rfl⟩
  obtain ⟨E3, q1, q2, q3, q4⟩ := hE3
  have hk2 : ({ x2 with edges := E3 } : Mesh P V T).tets.get w.tet = some (t'.clearLocked [face w.edge]) := by
    simp only [x2]
    rw [getT2, if_pos rfl]
  obtain ⟨tm, r1, r2, r3⟩ := Mesh.triRemoveTet_spec hk2
  obtain ⟨T3, s1, s2, s3, s4, -⟩ := IdMap.remove_spec w.tet (m := T2) ((D.wft.modify _ _).modify _ _)
  have getT3 : ∀ j, T3.get j = if j = w.tet then none else if j = o.tet then some (u'.clearLocked [face a.edge]) else x.tets.get j := by
    intro j
    rw [s3, getT2]
    split_ifs <;> rfl
  refine ⟨{ x2 with edges := E3, triMap := tm, tets := T3 }, em', ?_, ?_⟩
  · have a1 : x.toAdjAe w = some a := by
      simp only [Mesh.toAdjAe, ht', Option.map_some, ha, (tet_flags hft 0).2.2.2.2.2.1]
    have a2 : x.modEdge i1 clr = some { x with edges := x.edges.modify i1 clr } := by
      obtain ⟨ue, h1, -⟩ := hedgex w.edge
      simp only [Mesh.modEdge, i1, h1]
      rfl
    have a3 : Mesh.modEdge { x with edges := x.edges.modify i1 clr } i2 clr = some { x with edges := E2 } := by
      obtain ⟨ue, h1, -⟩ := hedgex w.nfe.edge
      have : ((x.edges.modify i1 clr).get i2).isSome = true := by
        rw [IdMap.get_modify]
        simp only [i2]
        split_ifs <;> simp [h1]
      simp only [Mesh.modEdge, this]
      rfl
    have a4 : Mesh.modTet { x with edges := E2 } w.tet (·.clearLocked [face w.edge]) =
        some { x with edges := E2, tets := x.tets.modify w.tet (·.clearLocked [face w.edge]) } := by
      simp [Mesh.modTet, ht']
    have a5 : Mesh.modTet { x with edges := E2, tets := x.tets.modify w.tet (·.clearLocked [face w.edge]) } a.tet (·.clearLocked [face a.edge]) =
        some x2 := by
      have : ((x.tets.modify w.tet (·.clearLocked [face w.edge])).get o.tet).isSome = true := by
        rw [IdMap.get_modify, if_neg hok, hux]
        rfl
      simp only [Mesh.modTet, hat, this]
      rfl
    have b1 : ∀ c, t'.undirEdge c = t.undirEdge c := fun c => (tet_flags hft c).2.2.2.1
    have b2 : t'.undirEdges w.edge = t.undirEdges w.edge := by simp only [Tet.undirEdges, b1]
    simp only [Mesh.capDrop, look, Option.bind_eq_bind, Option.bind_some, a1, ht', b1, b2]
    rw [show x.modEdge (t.undirEdge w.edge) (fun ue => { ue with locked := false }) = _ from a2]
    simp only [Option.bind_some]
    rw [show Mesh.modEdge { x with edges := x.edges.modify i1 clr } (t.undirEdge w.nfe.edge) (fun ue => { ue with locked := false }) = _ from a3]
    simp only [Option.bind_some]
    rw [a4]
    simp only [Option.bind_some]
    rw [a5]
    simp only [Option.bind_some]
    rw [k1]
    simp only [Option.bind_some]
    have fin : ((if some v1 = spine then x2.removeEdge i3 else some x2).bind fun y => (y.triRemoveTet w.tet).bind fun y =>
        (y.removeTet w.tet).bind fun y => pure (y, em')) = some ({ x2 with edges := E3, triMap := tm, tets := T3 }, em') := by
      rw [q1]
      simp only [Option.bind_some]
      rw [r1]
      simp only [Option.bind_some, Mesh.removeTet]
      rw [show ({ x2 with edges := E3, triMap := tm } : Mesh P V T).tets.remove w.tet = _ from s1]
      rfl
    rw [← fin]
    split_ifs
    · rfl
    · rfl
  have hT3 : ∀ {j s'}, T3.get j = some s' → ∃ s, x.tets.get j = some s ∧ (∀ c, s'.tri c = s.tri c) ∧ j ≠ w.tet := by
    intro j s' h
    rw [getT3] at h
    split_ifs at h with h1 h2
    · subst h2
      obtain rfl := Option.some.inj h
      exact ⟨u', hux, fun _ => rfl, h1⟩
    · exact ⟨s', h, fun _ => rfl, h1⟩
  have hT3' : ∀ {j s}, x.tets.get j = some s → j ≠ w.tet → ∃ s', T3.get j = some s' ∧ (∀ c, s'.tri c = s.tri c) := by
    intro j s h h1
    rw [getT3, if_neg h1]
    split_ifs with h2
    · subst h2
      obtain rfl := Option.some.inj (h.symm.trans hux)
      exact ⟨_, rfl, fun _ => rfl⟩
    · exact ⟨s, h, fun _ => rfl⟩
  have hkey : ∀ s, HasKey (t'.clearLocked [face w.edge]) s ↔ ∃ c, triKey (t.tri c) = s := by
    intro s
    rw [hasKey_iff_tri (t := t'.clearLocked [face w.edge]) (show Function.Injective t'.vertices from distx w.tet t' ht')]
    refine exists_congr fun c => ?_
    rw [show (t'.clearLocked [face w.edge]).tri c = t'.tri c from rfl, (tet_flags hft c).1]
  refine ⟨D.rest, q2, s2, ?_, ?_, ?_, ?_, ?_, ?_, ?_, ?_, ?_, ?_, ?_⟩
  · intro j s hs hR
    have hj : j ≠ w.tet := by
      rintro rfl
      obtain rfl := Option.some.inj (hs.symm.trans ht)
      exact hR (v0, v1) (by simp) hsame
    obtain ⟨s', h1, h2, h3⟩ := D.live j s hs (fun e' he' => hR e' (by simp [he']))
    simp only
    rw [getT3, if_neg hj]
    split_ifs with hjo
    · subst hjo
      obtain rfl := Option.some.inj (h1.symm.trans hux)
      obtain rfl := Option.some.inj (hs.symm.trans hu)
      refine ⟨_, rfl, ?_, ?_⟩
      · rw [← huf]; rfl
      · intro c
        have hr := rot_face (hT.distinct _ _ hs) o.edge c
        rw [hutri, ← haf] at hr
        simp only [Tet.clearLocked, List.mem_singleton, List.forall_mem_cons]
        rw [hr]
        by_cases hf : face c = face a.edge
        · simp [hf]
        · simp only [hf, if_false, not_false_eq_true, true_and]
          exact h3 c
    · refine ⟨s', h1, h2, fun c => ?_⟩
      rw [h3 c]
      simp only [List.forall_mem_cons]
      have : ¬ Rotation (vt, v1, v0) (s.tri c) := by
        intro hr
        have : ∃ c', u.tri c' = s.tri c := by
          rw [← hutri] at hr
          rcases hr with hr | hr | hr
          · exact ⟨_, hr.symm⟩
          · exact ⟨nfe o.edge, by rw [hr]; exact u.tri_nfe _⟩
          · exact ⟨pfe o.edge, by rw [hr]; exact u.tri_pfe _⟩
        obtain ⟨c', hc'⟩ := this
        exact hjo (hT.tunique _ s c _ u c' hs hu hc').1.symm
      simp only [this, not_false_eq_true, true_and]
  · intro j s' hs
    obtain ⟨s, h1, -, h2⟩ := hT3 hs
    obtain ⟨s0, h3, h4, h5⟩ := old h1
    refine ⟨s0, h3, ?_⟩
    rw [List.forall_mem_cons]
    refine ⟨fun h6 => h2 ?_, h5⟩
    exact hT.tet_unique ht h3 (q := quad (t.tet 0)) ((evenRearr_iff _ _).2 ⟨0, t.quad_tet 0⟩)
      (EvenRearr.trans ((evenRearr_iff _ _).2 ⟨0, s0.quad_tet 0⟩) (EvenRearr.trans (EvenRearr.symm h6) hsame))
  · intro s w' hw'
    simp only at hw'
    have hn : ¬ ∃ c, triKey (t.tri c) = s := by
      intro h
      rw [r2 s ((hkey s).2 h)] at hw'
      cases hw'
    rw [r3 s (fun h => hn ((hkey s).1 h))] at hw'
    obtain ⟨s', h1, h2⟩ := D.tsound s w' hw'
    have hj : w'.tet ≠ w.tet := by
      intro h
      rw [h] at h1
      obtain rfl := Option.some.inj (h1.symm.trans ht')
      exact hn ⟨w'.edge, by rw [← (tet_flags hft _).1]; exact h2⟩
    obtain ⟨s'', h3, h4⟩ := hT3' h1 hj
    exact ⟨s'', h3, by rw [h4, h2]⟩
  · intro j s c hs
    obtain ⟨s', h1, h2, h3⟩ := hT3 hs
    simp only
    rw [h2]
    rw [r3]
    · exact D.tc j s' c h1
    · intro h
      obtain ⟨c', hc'⟩ := (hkey _).1 h
      obtain ⟨s0, h4, h5, -⟩ := old h1
      rw [(tet_flags h5 c).1] at hc'
      have hrot : Rotation (t.tri c') (s0.tri c) :=
        Rotation.trans (hc' ▸ triKey_rotation (t.tri c')) (Rotation.symm (triKey_rotation (s0.tri c)))
      have : ∃ d, t.tri d = s0.tri c := by
        rcases hrot with hr | hr | hr
        · exact ⟨_, hr.symm⟩
        · exact ⟨nfe c', by rw [hr]; exact t.tri_nfe _⟩
        · exact ⟨pfe c', by rw [hr]; exact t.tri_pfe _⟩
      obtain ⟨d, hd⟩ := this
      exact h3 (hT.tunique _ t d _ s0 c ht h4 hd.symm).1
  · intro i ue hi
    simp only at hi
    rw [q3] at hi
    split_ifs at hi with h1
    have hcl : ∀ {ue0}, m.edges.get i = some ue0 → ((i = i1 ∨ i = i2) ↔ (ue0.vertices = sorted2 (v1, vt) ∨ ue0.vertices = sorted2 (vt, v0))) := by
      intro ue0 h0
      obtain ⟨a1, b1, c1⟩ := hedge w.edge
      obtain ⟨a2, b2, c2⟩ := hedge w.nfe.edge
      rw [ev1] at c1
      rw [ev2] at c2
      refine or_congr ⟨?_, ?_⟩ ⟨?_, ?_⟩
      · rintro rfl
        obtain rfl := Option.some.inj (h0.symm.trans b1)
        exact c1
      · exact fun h => hT.eunique _ _ _ _ h0 b1 (h.trans c1.symm)
      · rintro rfl
        obtain rfl := Option.some.inj (h0.symm.trans b2)
        exact c2
      · exact fun h => hT.eunique _ _ _ _ h0 b2 (h.trans c2.symm)
    rw [getE2] at hi
    split_ifs at hi with h2
    · obtain ⟨ue1, h3, rfl⟩ := Option.map_eq_some_iff.1 hi
      obtain ⟨ue0, h4, h5, -⟩ := D.ekeep i ue1 h3
      refine ⟨ue0, h4, h5, ?_⟩
      have := (hcl h4).1 h2
      simp only [clr, Bool.false_eq_true, false_iff, List.forall_mem_cons, not_and]
      intro _ h6
      exact absurd this (by simp [h6.1, h6.2])
    · obtain ⟨ue0, h4, h5, h6⟩ := D.ekeep i ue hi
      refine ⟨ue0, h4, h5, ?_⟩
      rw [h6]
      have := not_or.1 (fun h => h2 ((hcl h4).2 h))
      simp only [List.forall_mem_cons, ne_eq, this.1, this.2, not_false_eq_true, true_and]
  · intro i ue0 h0
    simp only
    rw [q3]
    split_ifs with h1
    · right
      obtain ⟨a1, b1, c1⟩ := hedge (w.perm P1320).edge
      rw [ev3] at c1
      rw [h1.2] at h0
      obtain rfl := Option.some.inj (h0.symm.trans b1)
      exact ⟨h1.1, c1⟩
    · left
      obtain ⟨ue, hue⟩ := (D.eall i ue0 h0).resolve_right (fun h => h.1)
      rw [getE2]
      split_ifs
      · exact ⟨_, by rw [hue]; rfl⟩
      · exact ⟨_, hue⟩
  · intro hs i ue hi hv
    simp only at hi
    rw [q3] at hi
    split_ifs at hi with h1
    refine h1 ⟨hs, ?_⟩
    have : ∃ ue0, m.edges.get i = some ue0 ∧ ue.vertices = ue0.vertices := by
      rw [getE2] at hi
      split_ifs at hi with h2
      · obtain ⟨ue1, h3, rfl⟩ := Option.map_eq_some_iff.1 hi
        obtain ⟨ue0, h4, h5, -⟩ := D.ekeep i ue1 h3
        exact ⟨ue0, h4, h5⟩
      · obtain ⟨ue0, h4, h5, -⟩ := D.ekeep i ue hi
        exact ⟨ue0, h4, h5⟩
    obtain ⟨ue0, h4, h5⟩ := this
    obtain ⟨a1, b1, c1⟩ := hedge (w.perm P1320).edge
    rw [ev3] at c1
    exact hT.eunique _ _ _ _ h4 b1 (by rw [← h5, hv, c1])
  · intro s i hs
    rcases k2 s i hs with h1 | ⟨ue, h1, h2⟩
    · exact D.emok s i h1
    · simp only [x2] at h1
      have : ∃ ue0, m.edges.get i = some ue0 ∧ ue.vertices = ue0.vertices := by
        rw [getE2] at h1
        split_ifs at h1 with h2
        · obtain ⟨ue1, h3, rfl⟩ := Option.map_eq_some_iff.1 h1
          obtain ⟨ue0, h4, h5, -⟩ := D.ekeep i ue1 h3
          exact ⟨ue0, h4, h5⟩
        · obtain ⟨ue0, h4, h5, -⟩ := D.ekeep i ue h1
          exact ⟨ue0, h4, h5⟩
      obtain ⟨ue0, h4, h5⟩ := this
      refine ⟨ue0, h4, ?_⟩
      obtain ⟨k, s0, c, h6, h7⟩ := hT.eused i ue0 h4
      obtain ⟨ue1, h8, h9⟩ := hT.eptr k s0 c h6
      rw [h7] at h8
      obtain rfl := Option.some.inj (h8.symm.trans h4)
      rw [← h2, h5, h9, sorted2_sorted2]
  · intro e he p hp q hq hpq
    rcases List.mem_cons.1 he with rfl | he
    · have vx : ∀ {p}, p ∈ list4 (fanTet vt vb (v0, v1)) → ∃ i, t.vertices i = p := by
        intro p hp
        rw [← htw] at hp
        simp only [list4, Tet.tet, List.mem_cons, List.not_mem_nil, or_false] at hp
        rcases hp with rfl | rfl | rfl | rfl <;> exact ⟨_, rfl⟩
      obtain ⟨i, rfl⟩ := vx hp
      obtain ⟨j, rfl⟩ := vx hq
      have : ∀ i j : Fin 4, i ≠ j → ∃ c, firstIdx c = i ∧ secondIdx c = j := by decide
      obtain ⟨c, rfl, rfl⟩ := this i j (fun h => hpq (by rw [h]))
      have key : ∀ e c : Code, undirIdx c = undirIdx (_root_.Tet.opp e) ∨ undirIdx c = undirIdx e ∨ undirIdx c = undirIdx (nfe e) ∨
        undirIdx c = undirIdx (pve e) ∨ undirIdx c = undirIdx (toPerm e P1320) ∨ undirIdx c = undirIdx (pfe e) := by decide
      have : ∃ i, t.undirEdges w.edge i = t.undirEdge c := by
        rcases key w.edge c with h | h | h | h | h | h
        · exact ⟨0, congrArg t.edges h.symm⟩
        · exact ⟨1, congrArg t.edges h.symm⟩
        · exact ⟨2, congrArg t.edges h.symm⟩
        · exact ⟨3, congrArg t.edges h.symm⟩
        · exact ⟨4, congrArg t.edges h.symm⟩
        · exact ⟨5, congrArg t.edges h.symm⟩
      obtain ⟨i, hi⟩ := this
      obtain ⟨ue, h1, h2⟩ := hE2 c
      obtain ⟨n, hn⟩ := k4 i (by fin_cases i <;> simp) ue (by rw [hi]; exact h1)
      rw [h2, sorted2_sorted2] at hn
      exact ⟨n, hn⟩
    · exact k3 _ (D.emdone e he p hp q hq hpq)
  · have := D.size
    simp only [List.length_cons]
    have h2 : T2.size = x.tets.size := by simp only [T2, IdMap.size_modify]
    have h3 : (T2.get w.tet).isSome = true := by rw [getT2, if_pos rfl]; rfl
    rw [h3] at s4
    simp only [if_true] at s4
    omega
  · have := D.esize
    have h2 : E2.size = x.edges.size := by simp only [E2, IdMap.size_modify]
    simp only
    omega

end Tet
