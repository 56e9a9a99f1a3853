import Verif.Proofs.Flip32

/-!
# The 1-to-4 flip
-/

namespace Tet
variable {P V T : Type}

/-- What is assumed of a 1-to-4 flip. -/
structure Pre14 (m : Mesh P V T) (id0 : TId) (v : VId) (t : Tet T) : Prop where
  h0 : m.tets.get id0 = some t
  hv : ∃ x, m.vertices.get v = some x
  roomT : m.tets.size + 3 ≤ idMax
  roomE : m.edges.size + 4 ≤ idMax

def redir14 (id0 id1 id2 id3 : TId) : List (Walker × TId × Code) :=
  [(⟨id0, 0⟩, id0, P0123), (⟨id0, 1⟩, id1, P0123), (⟨id0, 2⟩, id2, P0123), (⟨id0, 3⟩, id3, P0123)]

/-- The lock of one face only. -/
def lock1 (t : Tet T) (j : Fin 4) : Fin 4 → Bool := fun i => if i = j then t.flags.locked i else false

/-- The four new tets. -/
def tets14 (t : Tet T) (v : VId) (id0 id1 id2 id3 : TId) (e0 e1 e2 e3 : EId) : Fin 4 → Tet T :=
  ![{ t with
      vertices := ![v, t.vertices 1, t.vertices 2, t.vertices 3]
      opp := ![t.opp 0, ⟨id1, 0⟩, ⟨id2, 4⟩, ⟨id3, 8⟩]
      edges := ![t.edges 0, e1, t.edges 2, e3, t.edges 4, e2]
      flags := { t.flags with locked := lock1 t 0 } },
    { t with
      vertices := ![t.vertices 0, v, t.vertices 2, t.vertices 3]
      opp := ![⟨id0, 1⟩, t.opp 1, ⟨id2, 9⟩, ⟨id3, 5⟩]
      edges := ![t.edges 0, e0, e2, t.edges 3, e3, t.edges 5]
      flags := { t.flags with locked := lock1 t 1 } },
    { t with
      vertices := ![t.vertices 0, t.vertices 1, v, t.vertices 3]
      opp := ![⟨id0, 6⟩, ⟨id1, 10⟩, t.opp 2, ⟨id3, 2⟩]
      edges := ![e3, t.edges 1, e1, t.edges 3, t.edges 4, e0]
      flags := { t.flags with locked := lock1 t 2 } },
    { t with
      vertices := ![t.vertices 0, t.vertices 1, t.vertices 2, v]
      opp := ![⟨id0, 11⟩, ⟨id1, 7⟩, ⟨id2, 3⟩, t.opp 3]
      edges := ![e2, t.edges 1, t.edges 2, e0, e1, t.edges 5]
      flags := { t.flags with locked := lock1 t 3 } }]

/-- The result of a 1-to-4 flip. -/
structure Post14 (m m' : Mesh P V T) (w : Walker) (v : VId) (t : Tet T) (id1 id2 id3 : TId)
    (e0 e1 e2 e3 : EId) : Prop where
  free : m.tets.get id1 = none ∧ m.tets.get id2 = none ∧ m.tets.get id3 = none
  ne : id1 ≠ id2 ∧ id1 ≠ id3 ∧ id2 ≠ id3
  get : ∀ j, m'.tets.get j =
    if j = w.tet then some (tets14 t v w.tet id1 id2 id3 e0 e1 e2 e3 0)
    else if j = id1 then some (tets14 t v w.tet id1 id2 id3 e0 e1 e2 e3 1)
    else if j = id2 then some (tets14 t v w.tet id1 id2 id3 e0 e1 e2 e3 2)
    else if j = id3 then some (tets14 t v w.tet id1 id2 id3 e0 e1 e2 e3 3)
    else (m.tets.get j).map (patch [w.tet] (target (redir14 w.tet id1 id2 id3)))
  rest : m' = { m with
    vertices := setTets m.vertices [(v, w), (t.vertices 0, ⟨id2, 3⟩), (t.vertices 1, ⟨id3, 2⟩),
      (t.vertices 2, ⟨w.tet, 1⟩), (t.vertices 3, ⟨id1, 0⟩)]
    edges := m'.edges, tets := m'.tets, triMap := m'.triMap }
  efree : m.edges.get e0 = none ∧ m.edges.get e1 = none ∧ m.edges.get e2 = none ∧ m.edges.get e3 = none
  ene : e0 ≠ e1 ∧ e0 ≠ e2 ∧ e0 ≠ e3 ∧ e1 ≠ e2 ∧ e1 ≠ e3 ∧ e2 ≠ e3
  edges : ∀ e, m'.edges.get e =
    if e = e3 then some (UEdge.new (t.vertices 3, v))
    else if e = e2 then some (UEdge.new (t.vertices 2, v))
    else if e = e1 then some (UEdge.new (t.vertices 1, v))
    else if e = e0 then some (UEdge.new (t.vertices 0, v))
    else m.edges.get e
  ewf : m'.edges.WF
  esize : m'.edges.size = m.edges.size + 4
  wf : m'.tets.WF
  size : m'.tets.size = m.tets.size + 3
  tri : TriUpd m m' [w.tet] [w.tet, id1, id2, id3]

theorem permInv_id : ∀ e, permInv P0123 e = e := by decide

theorem Mesh.flip14Adj_eq {m : Mesh P V T} {id : TId} {i : Fin 4} {t} (h : m.tets.get id = some t) :
    m.flip14Adj id i = m.redirect (t.opp i) id P0123 := by
  simp only [Mesh.flip14Adj, h, Option.bind_eq_bind, Option.bind_some, Mesh.redirect, permInv_id]

theorem Mesh.insertEdge_step {m : Mesh P V T} (hm : m.edges.WF) (hr : m.edges.size < idMax)
    (vs : VId × VId) :
    ∃ es e, (∀ M : Mesh P V T, M.edges = m.edges →
        M.insertEdge vs = some ({ M with edges := es }, e)) ∧ es.WF ∧ m.edges.get e = none ∧
      (∀ j, es.get j = if j = e then some (UEdge.new vs) else m.edges.get j) ∧
      es.size = m.edges.size + 1 := by
  obtain ⟨es, e, h⟩ := IdMap.insert_isSome (v := UEdge.new vs) hm hr
  obtain ⟨h1, h2, h3, h4, h5⟩ := IdMap.insert_some hm h
  exact ⟨es, e, fun M hM => by simp [Mesh.insertEdge, hM, h], h1, h2, h4, h5⟩

theorem upd14 (t : Tet T) (v : VId) (id0 id1 id2 id3 : TId) (e0 e1 e2 e3 : EId) :
    (((((((t.clearLocked [3, 2, 1]).setVertex 0 v).setOpp 1 ⟨id1, 0⟩).setOpp 2 ⟨id2, 4⟩).setOpp 3
      ⟨id3, 8⟩).setEdge 1 e1).setEdge 5 e2).setEdge 3 e3 = tets14 t v id0 id1 id2 id3 e0 e1 e2 e3 0 ∧
    (((((((t.clearLocked [2, 3, 0]).setVertex 1 v).setOpp 2 ⟨id2, 9⟩).setOpp 3 ⟨id3, 5⟩).setOpp 0
      ⟨id0, 1⟩).setEdge 2 e2).setEdge 4 e3).setEdge 1 e0 = tets14 t v id0 id1 id2 id3 e0 e1 e2 e3 1 ∧
    (((((((t.clearLocked [1, 0, 3]).setVertex 2 v).setOpp 3 ⟨id3, 2⟩).setOpp 0 ⟨id0, 6⟩).setOpp 1
      ⟨id1, 10⟩).setEdge 0 e3).setEdge 5 e0).setEdge 2 e1 = tets14 t v id0 id1 id2 id3 e0 e1 e2 e3 2 ∧
    (((((((t.clearLocked [0, 1, 2]).setVertex 3 v).setOpp 0 ⟨id0, 11⟩).setOpp 1 ⟨id1, 7⟩).setOpp 2
      ⟨id2, 3⟩).setEdge 3 e0).setEdge 4 e1).setEdge 0 e2 = tets14 t v id0 id1 id2 id3 e0 e1 e2 e3 3 := by
  refine ⟨?_, ?_, ?_, ?_⟩ <;>
  · refine Tet.ext_fields ?_ ?_ ?_ ?_ rfl
    · funext i
      rcases fin4 i with rfl | rfl | rfl | rfl <;> rfl
    · funext i
      rcases fin4 i with rfl | rfl | rfl | rfl <;> rfl
    · funext i
      rcases fin6 i with rfl | rfl | rfl | rfl | rfl | rfl <;> rfl
    · show TFlags.mk _ _ _ _ _ _ _ = TFlags.mk _ _ _ _ _ _ _
      congr 1
      funext i
      rcases fin4 i with rfl | rfl | rfl | rfl <;> rfl

theorem flip14_exec {m : Mesh P V T} (hm : ConsistentT m) {w : Walker} {v : VId} {t : Tet T}
    (hp : Pre14 m w.tet v t) :
    ∃ m' id1 id2 id3 e0 e1 e2 e3,
      m.flip14Unchecked w v = some (m', [⟨w.tet, 0⟩, ⟨id1, 1⟩, ⟨id2, 2⟩, ⟨id3, 3⟩]) ∧
      Post14 m m' w v t id1 id2 id3 e0 e1 e2 e3 := by
  obtain ⟨h0, ⟨xv, hv⟩, hrT, hrE⟩ := hp
  obtain ⟨ts1, id1, i1, wf1, fr1, -, g1, sz1⟩ := Mesh.insertTet_step hm.stored.2.2 (by omega) t
  obtain ⟨ts2, id2, i2, wf2, fr2, -, g2, sz2⟩ := Mesh.insertTet_step
    (m := { m with tets := ts1 }) wf1 (by show ts1.size < _; omega) t
  obtain ⟨ts3, id3, i3, wf3, fr3, -, g3, sz3⟩ := Mesh.insertTet_step
    (m := { m with tets := ts2 }) wf2 (by show ts2.size < _; have : ts2.size = ts1.size + 1 := sz2; omega) t
  have fr2 : ts1.get id2 = none := fr2
  have fr3 : ts2.get id3 = none := fr3
  have g2 : ∀ j, ts2.get j = if j = id2 then some t else ts1.get j := g2
  have g3 : ∀ j, ts3.get j = if j = id3 then some t else ts2.get j := g3
  have n1 : id1 ≠ w.tet := by rintro rfl; rw [h0] at fr1; simp at fr1
  rw [g1] at fr2
  have n21 : id2 ≠ id1 := by rintro rfl; simp at fr2
  rw [if_neg n21] at fr2
  have n2 : id2 ≠ w.tet := by rintro rfl; rw [h0] at fr2; simp at fr2
  rw [g2, g1] at fr3
  have n32 : id3 ≠ id2 := by rintro rfl; simp at fr3
  rw [if_neg n32] at fr3
  have n31 : id3 ≠ id1 := by rintro rfl; simp at fr3
  rw [if_neg n31] at fr3
  have n3 : id3 ≠ w.tet := by rintro rfl; rw [h0] at fr3; simp at fr3
  have gg : ∀ j, ts3.get j = if j = id3 then some t else if j = id2 then some t else
      if j = id1 then some t else m.tets.get j := by
    intro j; rw [g3, g2, g1]
  -- lock flags
  obtain ⟨mA1, eA1, sA1, gA1⟩ := ({ m with tets := ts3 } : Mesh P V T).modTet_step
    (k := w.tet) (t := t) (·.clearLocked [3, 2, 1])
    (by rw [gg, if_neg n3.symm, if_neg n2.symm, if_neg n1.symm, h0])
  obtain ⟨mA2, eA2, sA2, gA2⟩ := mA1.modTet_step (k := id1) (t := t) (·.clearLocked [2, 3, 0])
    (by rw [gA1, if_neg n1, gg, if_neg n31.symm, if_neg n21.symm, if_pos rfl])
  obtain ⟨mA3, eA3, sA3, gA3⟩ := mA2.modTet_step (k := id2) (t := t) (·.clearLocked [1, 0, 3])
    (by rw [gA2, if_neg n21, gA1, if_neg n2, gg, if_neg n32.symm, if_pos rfl])
  obtain ⟨mA4, eA4, sA4, gA4⟩ := mA3.modTet_step (k := id3) (t := t) (·.clearLocked [0, 1, 2])
    (by rw [gA3, if_neg n32, gA2, if_neg n31, gA1, if_neg n3, gg, if_pos rfl])
  have sA := ((sA1.trans sA2).trans sA3).trans sA4
  have G0 : mA4.tets.get w.tet = some (t.clearLocked [3, 2, 1]) := by
    rw [gA4, if_neg n3.symm, gA3, if_neg n2.symm, gA2, if_neg n1.symm, gA1, if_pos rfl]
  have G1 : mA4.tets.get id1 = some (t.clearLocked [2, 3, 0]) := by
    rw [gA4, if_neg n31.symm, gA3, if_neg n21.symm, gA2, if_pos rfl]
  have G2 : mA4.tets.get id2 = some (t.clearLocked [1, 0, 3]) := by
    rw [gA4, if_neg n32.symm, gA3, if_pos rfl]
  have G3 : mA4.tets.get id3 = some (t.clearLocked [0, 1, 2]) := by
    rw [gA4, if_pos rfl]
  have GG : ∀ j, j ≠ w.tet → j ≠ id1 → j ≠ id2 → j ≠ id3 → mA4.tets.get j = m.tets.get j := by
    intro j a b c d
    rw [gA4, if_neg d, gA3, if_neg c, gA2, if_neg b, gA1, if_neg a, gg, if_neg d, if_neg c, if_neg b]
  obtain ⟨tm, eTR, hTR⟩ := Mesh.triRemoveTets_spec [w.tet] mA4 (by
    intro k hk
    simp only [List.mem_cons, List.not_mem_nil, or_false] at hk
    exact ⟨_, hk ▸ G0⟩)
  have hA : mA4 = { m with tets := mA4.tets } := sA.eq
  -- edges
  obtain ⟨es0, e0, x0, ewf0, efr0, eg0, esz0⟩ := Mesh.insertEdge_step hm.stored.2.1
    (by omega) (t.vertices 0, v)
  obtain ⟨es1, e1, x1, ewf1, efr1, eg1, esz1⟩ := Mesh.insertEdge_step (m := { m with edges := es0 }) ewf0
    (by show es0.size < _; omega) (t.vertices 1, v)
  obtain ⟨es2, e2, x2, ewf2, efr2, eg2, esz2⟩ := Mesh.insertEdge_step (m := { m with edges := es1 }) ewf1
    (by show es1.size < _; have : es1.size = es0.size + 1 := esz1; omega) (t.vertices 2, v)
  obtain ⟨es3, e3, x3, ewf3, efr3, eg3, esz3⟩ := Mesh.insertEdge_step (m := { m with edges := es2 }) ewf2
    (by
      show es2.size < _
      have : es1.size = es0.size + 1 := esz1
      have : es2.size = es1.size + 1 := esz2
      omega) (t.vertices 3, v)
  have efr1 : es0.get e1 = none := efr1
  have efr2 : es1.get e2 = none := efr2
  have efr3 : es2.get e3 = none := efr3
  have eg1 : ∀ j, es1.get j = if j = e1 then some (UEdge.new (t.vertices 1, v)) else es0.get j := eg1
  have eg2 : ∀ j, es2.get j = if j = e2 then some (UEdge.new (t.vertices 2, v)) else es1.get j := eg2
  have eg3 : ∀ j, es3.get j = if j = e3 then some (UEdge.new (t.vertices 3, v)) else es2.get j := eg3
  rw [eg0] at efr1
  have m10 : e1 ≠ e0 := by rintro rfl; simp at efr1
  rw [if_neg m10] at efr1
  rw [eg1, eg0] at efr2
  have m21 : e2 ≠ e1 := by rintro rfl; simp at efr2
  rw [if_neg m21] at efr2
  have m20 : e2 ≠ e0 := by rintro rfl; simp at efr2
  rw [if_neg m20] at efr2
  rw [eg2, eg1, eg0] at efr3
  have m32 : e3 ≠ e2 := by rintro rfl; simp at efr3
  rw [if_neg m32] at efr3
  have m31 : e3 ≠ e1 := by rintro rfl; simp at efr3
  rw [if_neg m31] at efr3
  have m30 : e3 ≠ e0 := by rintro rfl; simp at efr3
  rw [if_neg m30] at efr3
  -- the new tets
  generalize hmB : ({ mA4 with
    vertices := setTets mA4.vertices [(v, w), (t.vertices 0, ⟨id2, 3⟩), (t.vertices 1, ⟨id3, 2⟩),
      (t.vertices 2, ⟨w.tet, 1⟩), (t.vertices 3, ⟨id1, 0⟩)]
    edges := es3, triMap := tm } : Mesh P V T) = mB
  have tB : mB.tets = mA4.tets := by rw [← hmB]
  obtain ⟨u0, u1, u2, u3⟩ := upd14 t v w.tet id1 id2 id3 e0 e1 e2 e3
  obtain ⟨mC0, eC0, sC0, gC0⟩ := mB.modTet_step (k := w.tet) (t := t.clearLocked [3, 2, 1])
    (fun t => (((((((t.setVertex 0 v).setOpp 1 ⟨id1, 0⟩).setOpp 2 ⟨id2, 4⟩).setOpp 3 ⟨id3, 8⟩).setEdge
      1 e1).setEdge 5 e2).setEdge 3 e3)) (tB ▸ G0)
  obtain ⟨mC1, eC1, sC1, gC1⟩ := mC0.modTet_step (k := id1) (t := t.clearLocked [2, 3, 0])
    (fun t => (((((((t.setVertex 1 v).setOpp 2 ⟨id2, 9⟩).setOpp 3 ⟨id3, 5⟩).setOpp 0 ⟨w.tet, 1⟩).setEdge
      2 e2).setEdge 4 e3).setEdge 1 e0)) (by rw [gC0, if_neg n1, tB, G1])
  obtain ⟨mC2, eC2, sC2, gC2⟩ := mC1.modTet_step (k := id2) (t := t.clearLocked [1, 0, 3])
    (fun t => (((((((t.setVertex 2 v).setOpp 3 ⟨id3, 2⟩).setOpp 0 ⟨w.tet, 6⟩).setOpp 1 ⟨id1, 10⟩).setEdge
      0 e3).setEdge 5 e0).setEdge 2 e1)) (by rw [gC1, if_neg n21, gC0, if_neg n2, tB, G2])
  obtain ⟨mC3, eC3, sC3, gC3⟩ := mC2.modTet_step (k := id3) (t := t.clearLocked [0, 1, 2])
    (fun t => (((((((t.setVertex 3 v).setOpp 0 ⟨w.tet, 11⟩).setOpp 1 ⟨id1, 7⟩).setOpp 2 ⟨id2, 3⟩).setEdge
      3 e0).setEdge 4 e1).setEdge 0 e2)) (by rw [gC2, if_neg n32, gC1, if_neg n31, gC0, if_neg n3, tB, G3])
  beta_reduce at gC0 gC1 gC2 gC3
  rw [u0] at gC0
  rw [u1] at gC1
  rw [u2] at gC2
  rw [u3] at gC3
  have sC := ((sC0.trans sC1).trans sC2).trans sC3
  have H0 : mC3.tets.get w.tet = some (tets14 t v w.tet id1 id2 id3 e0 e1 e2 e3 0) := by
    rw [gC3, if_neg n3.symm, gC2, if_neg n2.symm, gC1, if_neg n1.symm, gC0, if_pos rfl]
  have H1 : mC3.tets.get id1 = some (tets14 t v w.tet id1 id2 id3 e0 e1 e2 e3 1) := by
    rw [gC3, if_neg n31.symm, gC2, if_neg n21.symm, gC1, if_pos rfl]
  have H2 : mC3.tets.get id2 = some (tets14 t v w.tet id1 id2 id3 e0 e1 e2 e3 2) := by
    rw [gC3, if_neg n32.symm, gC2, if_pos rfl]
  have H3 : mC3.tets.get id3 = some (tets14 t v w.tet id1 id2 id3 e0 e1 e2 e3 3) := by
    rw [gC3, if_pos rfl]
  have HH : ∀ j, j ∉ [w.tet, id1, id2, id3] → mC3.tets.get j = m.tets.get j := by
    intro j hj
    simp only [List.mem_cons, List.not_mem_nil, or_false, not_or] at hj
    obtain ⟨a, b, c, d⟩ := hj
    rw [gC3, if_neg d, gC2, if_neg c, gC1, if_neg b, gC0, if_neg a, tB, GG j a b c d]
  -- redirect the neighbours
  have nbr : ∀ f, ∃ u, m.tets.get (t.opp f).tet = some u ∧ (t.opp f).tet ≠ w.tet := by
    intro f
    obtain ⟨u, hu, -⟩ := hm.adj.opp_opp h0 f
    refine ⟨u, hu, ?_⟩
    have := hm.adj.no_self hm.distinct h0 (canonCode f)
    rwa [Tet.adj_canonCode] at this
  have nin : ∀ f, (t.opp f).tet ∉ [w.tet, id1, id2, id3] := by
    intro f
    obtain ⟨u, hu, hne⟩ := nbr f
    simp only [List.mem_cons, List.not_mem_nil, or_false, not_or]
    refine ⟨hne, ?_, ?_, ?_⟩ <;> intro h <;> rw [h] at hu
    · rw [fr1] at hu; simp at hu
    · rw [fr2] at hu; simp at hu
    · rw [fr3] at hu; simp at hu
  have I0 : RInv m mC3 [w.tet, id1, id2, id3] mC3.tets.get [] := by
    refine ⟨fun _ _ => rfl, fun j hj => ?_⟩
    rw [HH j hj]
    show _ = (m.tets.get j).map id
    simp
  obtain ⟨w1, hw1, -⟩ := nbr 1
  obtain ⟨w2, hw2, -⟩ := nbr 2
  obtain ⟨w3, hw3, -⟩ := nbr 3
  obtain ⟨m1, f1, s1, I1⟩ := I0.redirect hw1 (nin 1) id1 P0123
  obtain ⟨m2, f2, s2, I2⟩ := I1.redirect hw2 (nin 2) id2 P0123
  obtain ⟨m3, f3, s3, I3⟩ := I2.redirect hw3 (nin 3) id3 P0123
  have f1' : mC3.flip14Adj id1 1 = some m1 := by
    rw [Mesh.flip14Adj_eq H1]; exact f1
  have f2' : m1.flip14Adj id2 2 = some m2 := by
    rw [Mesh.flip14Adj_eq ((I1.1 id2 (by simp)).trans H2)]; exact f2
  have f3' : m2.flip14Adj id3 3 = some m3 := by
    rw [Mesh.flip14Adj_eq ((I2.1 id3 (by simp)).trans H3)]; exact f3
  have sD := (s1.trans s2).trans s3
  have K0 := (I3.1 w.tet (by simp)).trans H0
  have K1 := (I3.1 id1 (by simp)).trans H1
  have K2 := (I3.1 id2 (by simp)).trans H2
  have K3 := (I3.1 id3 (by simp)).trans H3
  have Ln : ∀ j u, j ∉ [w.tet] → m.tets.get j = some u →
      patches ([] ++ [(t.opp 1, id1, P0123)] ++ [(t.opp 2, id2, P0123)] ++ [(t.opp 3, id3, P0123)]) j u =
      patch [w.tet] (target (redir14 w.tet id1 id2 id3)) u := by
    intro j u hj hu
    have := patches_eq_patch hm.adj [w.tet] (redir14 w.tet id1 id2 id3)
      (fun x => t.adj x.edge) ?_ ?_ ?_ hj hu
    · rw [← this]
      have first : patch1 (t.opp 0, w.tet, P0123) j u = u := by
        unfold patch1
        split
        · rename_i hjj
          have hjj : j = (t.opp 0).tet := hjj
          obtain ⟨u', hu', hu1, hu2⟩ := hm.adj.opp_opp h0 0
          rw [← hjj, hu] at hu'
          cases hu'
          refine Tet.ext_fields rfl ?_ rfl rfl rfl
          funext f
          show (if f = _ then _ else _) = _
          split
          · rename_i hf
            rw [permInv_id]
            have : (u.opp f).tet = w.tet := by rw [hf]; exact hu1
            rw [← this]
          · rfl
        · rfl
      have a0 : t.adj 0 = t.opp 0 := t.adj_canonCode 0
      have a1 : t.adj 1 = t.opp 1 := t.adj_canonCode 1
      have a2 : t.adj 2 = t.opp 2 := t.adj_canonCode 2
      have a3 : t.adj 3 = t.opp 3 := t.adj_canonCode 3
      simp only [redir14, List.map_cons, List.map_nil, a0, a1, a2, a3, patches, List.nil_append,
        List.cons_append, List.foldl_cons, List.foldl_nil, first]
    · intro r hr
      simp only [redir14, List.mem_cons, List.not_mem_nil, or_false] at hr
      rcases hr with rfl | rfl | rfl | rfl <;>
      exact ⟨by simp, t, h0, rfl, by simpa using hm.adj.no_self hm.distinct h0 _⟩
    · intro x t' hx ht' hout
      simp only [List.mem_cons, List.not_mem_nil, or_false] at hx
      rcases fin4 (face x.edge) with h | h | h | h
      · exact ⟨_, .head _, hx.symm, h.symm⟩
      · exact ⟨_, .tail _ (.head _), hx.symm, h.symm⟩
      · exact ⟨_, .tail _ (.tail _ (.head _)), hx.symm, h.symm⟩
      · exact ⟨_, .tail _ (.tail _ (.tail _ (.head _))), hx.symm, h.symm⟩
    · have : face 0 ≠ face 1 ∧ face 0 ≠ face 2 ∧ face 0 ≠ face 3 ∧ face 1 ≠ face 2 ∧ face 1 ≠ face 3 ∧
        face 2 ≠ face 3 := by decide
      simp [redir14, this]
  obtain ⟨tm', eTI, hTI⟩ := Mesh.triInsertTets_spec [w.tet, id1, id2, id3] m3 (by
    intro k hk
    simp only [List.mem_cons, List.not_mem_nil, or_false] at hk
    rcases hk with rfl | rfl | rfl | rfl
    · exact ⟨_, K0⟩
    · exact ⟨_, K1⟩
    · exact ⟨_, K2⟩
    · exact ⟨_, K3⟩)
  have hrest : m3 = { m with
      vertices := setTets m.vertices [(v, w), (t.vertices 0, ⟨id2, 3⟩), (t.vertices 1, ⟨id3, 2⟩),
        (t.vertices 2, ⟨w.tet, 1⟩), (t.vertices 3, ⟨id1, 0⟩)]
      edges := es3, tets := m3.tets, triMap := tm } := by
    rw [sD.eq, sC.eq, ← hmB, hA]
  refine ⟨{ m3 with triMap := tm' }, id1, id2, id3, e0, e1, e2, e3, ?_, ?_⟩
  · unfold Mesh.flip14Unchecked
    refine (bind_step h0 _).trans ?_
    refine (bind_step i1 _).trans ?_
    refine (bind_step i2 _).trans ?_
    refine (bind_step i3 _).trans ?_
    refine (bind_step eA1 _).trans ?_
    refine (bind_step eA2 _).trans ?_
    refine (bind_step eA3 _).trans ?_
    refine (bind_step eA4 _).trans ?_
    refine (bind_step eTR _).trans ?_
    refine (bind_step (a := xv) (by show mA4.vertices.get v = _; rw [hA]; exact hv) _).trans ?_
    refine (bind_step (x0 _ (by show mA4.edges = _; rw [hA])) _).trans ?_
    refine (bind_step (x1 _ (by rfl)) _).trans ?_
    refine (bind_step (x2 _ (by rfl)) _).trans ?_
    refine (bind_step (a := (mB, e3)) ((x3 _ (by rfl)).trans (by rw [← hmB]; rfl)) _).trans ?_
    refine (bind_step eC0 _).trans ?_
    refine (bind_step eC1 _).trans ?_
    refine (bind_step eC2 _).trans ?_
    refine (bind_step eC3 _).trans ?_
    refine (bind_step f1' _).trans ?_
    refine (bind_step f2' _).trans ?_
    refine (bind_step f3' _).trans ?_
    exact bind_step eTI _
  · have hed : m3.edges = es3 := by rw [hrest]
    refine ⟨⟨fr1, fr2, fr3⟩, ⟨n21.symm, n31.symm, n32.symm⟩, ?_, ?_, ⟨efr0, efr1, efr2, efr3⟩,
      ⟨m10.symm, m20.symm, m30.symm, m21.symm, m31.symm, m32.symm⟩, ?_, hed ▸ ewf3, ?_, ?_, ?_, ?_⟩
    · intro j
      show m3.tets.get j = _
      split_ifs with c0 c1 c2 c3
      · subst c0; rw [K0]
      · subst c1; rw [K1]
      · subst c2; rw [K2]
      · subst c3; rw [K3]
      · rw [I3.2 j (by simp [c0, c1, c2, c3])]
        cases hg : m.tets.get j with
        | none => rfl
        | some u => exact congrArg some (Ln j u (by simp [c0]) hg)
    · show ({ m3 with triMap := tm' } : Mesh P V T) = _
      rw [hrest]
    · intro e
      show m3.edges.get e = _
      rw [hed, eg3, eg2, eg1, eg0]
    · show m3.edges.size = _
      rw [hed]
      have a0 : es0.size = m.edges.size + 1 := esz0
      have a1 : es1.size = es0.size + 1 := esz1
      have a2 : es2.size = es1.size + 1 := esz2
      have a3 : es3.size = es2.size + 1 := esz3
      omega
    · exact sD.wf (sC.wf (tB ▸ sA.wf wf3))
    · show m3.tets.size = _
      rw [sD.size, sC.size, tB, sA.size]
      have a1 : ts1.size = m.tets.size + 1 := sz1
      have a2 : ts2.size = ts1.size + 1 := sz2
      have a3 : ts3.size = ts2.size + 1 := sz3
      show ts3.size = _
      omega
    · refine TriUpd.of (ma := mA4) (mb := m3) (tm := tm) ?_ ?_ ?_ ?_ ?_ hTR hTI
      · rw [hA]
      · rw [hrest]
      · rw [hA]
      · rw [hrest]
      · intro k hk
        simp only [List.mem_cons, List.not_mem_nil, or_false] at hk
        subst hk
        exact ⟨_, _, h0, G0, rfl⟩

def pat14 : Pat 5 1 4 where
  old := ![![0, 1, 2, 3]]
  new := ![![4, 1, 2, 3], ![0, 4, 2, 3], ![0, 1, 4, 3], ![0, 1, 2, 4]]
  oin := fun _ _ => false
  nin := ![![none, some (1, 0), some (2, 4), some (3, 8)], ![some (0, 1), none, some (2, 9), some (3, 5)],
    ![some (0, 6), some (1, 10), none, some (3, 2)], ![some (0, 11), some (1, 7), some (2, 3), none]]
  tgt := ![![(0, P0123), (1, P0123), (2, P0123), (3, P0123)]]
  src := ![![(0, 0), (0, 0), (0, 0), (0, 0)], ![(0, 0), (0, 1), (0, 0), (0, 0)],
    ![(0, 0), (0, 0), (0, 2), (0, 0)], ![(0, 0), (0, 0), (0, 0), (0, 3)]]

set_option maxRecDepth 10000 in
theorem pat14_ok : pat14.OK where
  tgt_tri := by decide
  tgt_out := by decide
  src_tgt := by decide
  tgt_src := by decide
  glue := by unfold pat14; decide
  inj := by unfold Function.Injective; decide
  tin := by decide
  rin := by decide

theorem toPerm_id : ∀ c, toPerm P0123 c = c := by decide

theorem fin1 : ∀ i : Fin 1, i = 0 := by decide

theorem real14 {m m' : Mesh P V T} (hm : ConsistentT m) {w : Walker} {v : VId} {t : Tet T}
    (hp : Pre14 m w.tet v t) {id1 id2 id3 e0 e1 e2 e3} (hq : Post14 m m' w v t id1 id2 id3 e0 e1 e2 e3)
    (hno : ∀ k t i, m.tets.get k = some t → t.vertices i ≠ v) :
    Pat.Real pat14 m m' [w.tet] [w.tet, id1, id2, id3] (target (redir14 w.tet id1 id2 id3))
      ![w.tet] ![w.tet, id1, id2, id3] ![P0123] ![t] (tets14 t v w.tet id1 id2 id3 e0 e1 e2 e3)
      ![t.vertices 0, t.vertices 1, t.vertices 2, t.vertices 3, v] := by
  have h0 := hp.h0
  obtain ⟨fr1, fr2, fr3⟩ := hq.free
  obtain ⟨n12, n13, n23⟩ := hq.ne
  have n1 : id1 ≠ w.tet := by rintro rfl; rw [h0] at fr1; simp at fr1
  have n2 : id2 ≠ w.tet := by rintro rfl; rw [h0] at fr2; simp at fr2
  have n3 : id3 ≠ w.tet := by rintro rfl; rw [h0] at fr3; simp at fr3
  have inj := hm.distinct _ _ h0
  have vne : ∀ i, t.vertices i ≠ v := fun i => hno _ _ i h0
  have hid : ∀ j : Fin 4, perms P0123 j = j := by decide
  -- no old tet has an edge or a triangle with the new vertex
  have noedge : ∀ k t e, m.tets.get k = some t → (t.edge e).1 ≠ v ∧ (t.edge e).2 ≠ v := by
    intro k t e ht
    exact ⟨hno k t _ ht, hno k t _ ht⟩
  refine ⟨?_, ?_, ?_, ?_, ?_, ?_, ?_, ?_, ?_, ?_, ?_, ?_, ?_, ?_, ?_, ?_, ?_, ?_, ?_, ?_⟩
  · intro k; simp [Fin.exists_fin_succ]
  · intro k; simp [Fin.exists_fin_succ]
  · intro i
    rw [fin1 i]; exact h0
  · intro i
    rcases fin4 i with rfl | rfl | rfl | rfl
    · exact (hq.get _).trans (if_pos rfl)
    · exact (hq.get _).trans ((if_neg n1).trans (if_pos rfl))
    · exact (hq.get _).trans ((if_neg n2).trans ((if_neg n12.symm).trans (if_pos rfl)))
    · exact (hq.get _).trans ((if_neg n3).trans ((if_neg n13.symm).trans ((if_neg n23.symm).trans
        (if_pos rfl))))
  · intro i hi
    rcases fin4 i with rfl | rfl | rfl | rfl
    · exact absurd (by simp) hi
    · exact fr1
    · exact fr2
    · exact fr3
  · intro i hi
    rw [fin1 i] at hi
    exact absurd (by simp) hi
  · intro k hk hk'
    simp only [List.mem_cons, List.not_mem_nil, or_false, not_or] at hk hk'
    exact (hq.get _).trans ((if_neg hk).trans ((if_neg hk'.2.1).trans ((if_neg hk'.2.2.1).trans
      (if_neg hk'.2.2.2))))
  · apply inj5
    have d : ∀ {i j : Fin 4}, i ≠ j → t.vertices i ≠ t.vertices j := fun h e => h (inj e)
    exact ⟨d (by decide), d (by decide), d (by decide), vne _, d (by decide), d (by decide), vne _,
      d (by decide), vne _, vne _⟩
  · intro i j
    rw [fin1 i]
    show t.vertices (perms P0123 j) = _
    rw [hid]
    rcases fin4 j with rfl | rfl | rfl | rfl <;> rfl
  · intro i j
    rcases fin4 i with rfl | rfl | rfl | rfl <;> rcases fin4 j with rfl | rfl | rfl | rfl <;> rfl
  · intro i c hc
    exact absurd hc (by simp [pat14])
  · intro i c hc
    rw [fin1 i]
    show (t.adj (toPerm P0123 c)).tet ∉ _
    rw [List.mem_singleton]
    exact hm.adj.no_self hm.distinct h0 _
  · intro i c hc
    rw [fin1 i]
    show moved (target (redir14 w.tet id1 id2 id3)) ⟨w.tet, toPerm P0123 c⟩ = _
    rw [toPerm_id]
    have f4 : face 0 = 0 ∧ face 1 = 1 ∧ face 2 = 2 ∧ face 3 = 3 := by decide
    rcases fin4 (face c) with hf | hf | hf | hf
    · refine Eq.trans (b := (⟨w.tet, permInv P0123 c⟩ : Walker)) ?_ (by simp only [Pat.ntgt, hf]; rfl)
      simp [moved, redir14, target_cons, hf, f4]
    · refine Eq.trans (b := (⟨id1, permInv P0123 c⟩ : Walker)) ?_ (by simp only [Pat.ntgt, hf]; rfl)
      simp [moved, redir14, target_cons, hf, f4]
    · refine Eq.trans (b := (⟨id2, permInv P0123 c⟩ : Walker)) ?_ (by simp only [Pat.ntgt, hf]; rfl)
      simp [moved, redir14, target_cons, hf, f4]
    · refine Eq.trans (b := (⟨id3, permInv P0123 c⟩ : Walker)) ?_ (by simp only [Pat.ntgt, hf]; rfl)
      simp [moved, redir14, target_cons, hf, f4]
  · intro j f y hy
    rcases fin4 j with rfl | rfl | rfl | rfl <;> rcases fin4 f with rfl | rfl | rfl | rfl <;>
      first
      | (cases (show some _ = some y from hy); rfl)
      | exact absurd (show (none : Option (Fin 4 × Code)) = some y from hy) (by simp)
  · intro j f hf
    rcases fin4 j with rfl | rfl | rfl | rfl <;> rcases fin4 f with rfl | rfl | rfl | rfl <;>
      first
      | exact absurd hf (by decide)
      | exact ((congrArg t.adj (toPerm_id 0)).trans (t.adj_canonCode 0)).symm
      | exact ((congrArg t.adj (toPerm_id 1)).trans (t.adj_canonCode 1)).symm
      | exact ((congrArg t.adj (toPerm_id 2)).trans (t.adj_canonCode 2)).symm
      | exact ((congrArg t.adj (toPerm_id 3)).trans (t.adj_canonCode 3)).symm
  · intro j f hf
    rcases fin4 j with rfl | rfl | rfl | rfl <;> rcases fin4 f with rfl | rfl | rfl | rfl <;>
      first
      | exact absurd hf (by decide)
      | rfl
  · intro j f hf
    have fq : face (toPerm P0123 0) = 0 ∧ face (toPerm P0123 1) = 1 ∧ face (toPerm P0123 2) = 2 ∧
      face (toPerm P0123 3) = 3 := by decide
    rcases fin4 j with rfl | rfl | rfl | rfl <;> rcases fin4 f with rfl | rfl | rfl | rfl <;>
      first
      | exact absurd hf (by decide)
      | exact congrArg t.flags.locked fq.1.symm
      | exact congrArg t.flags.locked fq.2.1.symm
      | exact congrArg t.flags.locked fq.2.2.1.symm
      | exact congrArg t.flags.locked fq.2.2.2.symm
  · intro j d
    have : ∀ j d, (∃ i c, pedge (pat14.old i) c = pedge (pat14.new j) d) ∨
      (pedge (pat14.new j) d).1 = 4 ∨ (pedge (pat14.new j) d).2 = 4 := by decide
    rcases this j d with h | h | h
    · exact .inl h
    · right
      intro k t' e ht he
      refine (noedge k t' e ht).1 ?_
      rw [he, map2, h]; rfl
    · right
      intro k t' e ht he
      refine (noedge k t' e ht).2 ?_
      rw [he, map2, h]; rfl
  · intro i c
    left
    have : ∀ i c, ∃ j d, pedge (pat14.new j) d = pedge (pat14.old i) c := by decide
    exact this i c
  · intro j d hd k t' e hk ht he
    have : ∀ j d, pat14.nin j (face d) ≠ none → (ptri (pat14.new j) d).1 = 4 ∨
        (ptri (pat14.new j) d).2.1 = 4 ∨ (ptri (pat14.new j) d).2.2 = 4 := by
      unfold pat14; decide
    rcases this j d hd with h | h | h
    · refine hno k t' (firstIdx e) ht ?_
      refine (congrArg Prod.fst he).trans ?_
      rw [map3, h]; rfl
    · refine hno k t' (secondIdx e) ht ?_
      refine (congrArg (fun x => x.2.1) he).trans ?_
      rw [map3, h]; rfl
    · refine hno k t' (thirdIdx e) ht ?_
      refine (congrArg (fun x => x.2.2) he).trans ?_
      rw [map3, h]; rfl

/-- The edges of the new tets: an old slot, or the edge from an old vertex to the new one. -/
def slot14 : Fin 4 → Fin 6 → Fin 6 ⊕ Fin 4 :=
  ![![.inl 0, .inr 1, .inl 2, .inr 3, .inl 4, .inr 2], ![.inl 0, .inr 0, .inr 2, .inl 3, .inr 3, .inl 5],
    ![.inr 3, .inl 1, .inr 1, .inl 3, .inl 4, .inr 0], ![.inr 2, .inl 1, .inl 2, .inr 0, .inr 1, .inl 5]]

theorem slot14_old : ∀ j s i, slot14 j s = .inl i →
    pedge (pat14.new j) (toUndirEdge s) = pedge (pat14.old 0) (toUndirEdge i) := by
  unfold slot14 pat14; decide

def up14 : Fin 4 → Fin 5 := ![0, 1, 2, 3]

theorem slot14_new : ∀ j s i, slot14 j s = .inr i →
    pedge (pat14.new j) (toUndirEdge s) = (up14 i, 4) ∨
    pedge (pat14.new j) (toUndirEdge s) = (4, up14 i) := by
  unfold slot14 pat14 up14; decide

theorem flip14_surgery {m m' : Mesh P V T} (hm : ConsistentT m) {w : Walker} {v : VId} {t : Tet T}
    (hp : Pre14 m w.tet v t) {id1 id2 id3 e0 e1 e2 e3} (hq : Post14 m m' w v t id1 id2 id3 e0 e1 e2 e3)
    (hw : firstIdx w.edge = 0) (hno : ∀ k t i, m.tets.get k = some t → t.vertices i ≠ v) :
    MeshSurgery m m' [w.tet] [w.tet, id1, id2, id3] (target (redir14 w.tet id1 id2 id3)) := by
  have hr := real14 hm hp hq hno
  have h0 := hp.h0
  obtain ⟨ef0, ef1, ef2, ef3⟩ := hq.efree
  obtain ⟨q01, q02, q03, q12, q13, q23⟩ := hq.ene
  have hkeep : ∀ e ue, m.edges.get e = some ue → m'.edges.get e = some ue := by
    intro e ue he
    rw [hq.edges, if_neg, if_neg, if_neg, if_neg, he] <;> rintro rfl
    · rw [ef0] at he; simp at he
    · rw [ef1] at he; simp at he
    · rw [ef2] at he; simp at he
    · rw [ef3] at he; simp at he
  have eslot : ∀ j s, (tets14 t v w.tet id1 id2 id3 e0 e1 e2 e3 j).edges s =
      match slot14 j s with
      | .inl i => t.edges i
      | .inr i => (![e0, e1, e2, e3] : Fin 4 → EId) i := by
    intro j s
    rcases fin4 j with rfl | rfl | rfl | rfl <;> rcases fin6 s with rfl | rfl | rfl | rfl | rfl | rfl <;> rfl
  have eget : ∀ i, m'.edges.get ((![e0, e1, e2, e3] : Fin 4 → EId) i) =
      some (UEdge.new (t.vertices i, v)) := by
    intro i
    rcases fin4 i with rfl | rfl | rfl | rfl
    · exact (hq.edges _).trans ((if_neg q03).trans ((if_neg q02).trans ((if_neg q01).trans (if_pos rfl))))
    · exact (hq.edges _).trans ((if_neg q13).trans ((if_neg q12).trans (if_pos rfl)))
    · exact (hq.edges _).trans ((if_neg q23).trans (if_pos rfl))
    · exact (hq.edges _).trans (if_pos rfl)
  have upL : ∀ i, (![t.vertices 0, t.vertices 1, t.vertices 2, t.vertices 3, v] : Fin 5 → VId) (up14 i) =
      t.vertices i := by
    intro i
    rcases fin4 i with rfl | rfl | rfl | rfl <;> rfl
  have hui : ∀ i, undirIdx (toUndirEdge i) = i := by decide
  have enew := slots_enough (E := m'.edges.get) (tets14 t v w.tet id1 id2 id3 e0 e1 e2 e3)
    ![t.vertices 0, t.vertices 1, t.vertices 2, t.vertices 3, v] pat14.new (by
      intro j s
      rw [eslot]
      cases hs : slot14 j s with
      | inl i =>
        obtain ⟨ue, a, b⟩ := hm.eptr _ _ (toUndirEdge i) h0
        rw [Tet.undirEdge, hui] at a
        refine ⟨ue, hkeep _ _ a, b.trans ?_⟩
        rw [slot14_old j s i hs, ← hr.edgeO]
        exact congrArg (fun x => sorted2 (t.edge x)) (toPerm_id _).symm
      | inr i =>
        refine ⟨_, eget i, ?_⟩
        refine (sorted2_eq_iff _ _).2 ?_
        rcases slot14_new j s i hs with h | h <;> rw [h]
        · left
          exact congrArg (fun x => (x, v)) (upL i)
        · right
          exact congrArg (fun x => (v, x)) (upL i))
  -- codes of new edges
  have newslot : ∀ j d, (¬ ∃ i c, pedge (pat14.old i) c = pedge (pat14.new j) d) →
      ∃ i, slot14 j (undirIdx d) = .inr i ∧
        (pedge (pat14.new j) d = (up14 i, 4) ∨ pedge (pat14.new j) d = (4, up14 i)) := by
    unfold slot14 pat14 up14; decide
  have upinj : ∀ i i', up14 i = up14 i' → i = i' := by decide
  have upne : ∀ i, up14 i ≠ 4 := by decide
  have everyE : ∀ i, ∃ j d, slot14 j (undirIdx d) = .inr i ∧
      ¬ ∃ i c, pedge (pat14.old i) c = pedge (pat14.new j) d := by
    unfold slot14 pat14; decide
  obtain ⟨k1, k2, k3⟩ := hr.edges pat14_ok hm enew (fun e ue he => .inl (hkeep e ue he))
    (by
      intro e ue he
      have : (∃ i, e = (![e0, e1, e2, e3] : Fin 4 → EId) i) ∨ m.edges.get e = some ue := by
        rw [hq.edges] at he
        split_ifs at he with c3 c2 c1 c0
        · exact .inl ⟨3, c3⟩
        · exact .inl ⟨2, c2⟩
        · exact .inl ⟨1, c1⟩
        · exact .inl ⟨0, c0⟩
        · exact .inr he
      rcases this with ⟨i, hi⟩ | h
      · right
        obtain ⟨j, d, h1, h2⟩ := everyE i
        refine ⟨j, d, ?_, h2⟩
        rw [hi, Tet.undirEdge, eslot, h1]
      · exact .inl h)
    (by
      intro j d j' d' hj hs
      obtain ⟨i, h1, h2⟩ := newslot j d hj
      rw [sorted2_eq_iff] at hs
      have hj' : ¬ ∃ i c, pedge (pat14.old i) c = pedge (pat14.new j') d' := by
        rintro ⟨i, c, hic⟩
        rcases hs with hs | hs
        · exact hj ⟨i, c, hic.trans (map2_inj hr.injL hs)⟩
        · refine hj ⟨i, twin c, ?_⟩
          rw [pedge_twin, hic]
          apply map2_inj hr.injL
          have : ∀ x : Fin 5 × Fin 5, ∀ L : Fin 5 → VId, map2 L x.swap = (map2 L x).swap := fun _ _ => rfl
          rw [this, hs]
          rfl
      obtain ⟨i', h1', h2'⟩ := newslot j' d' hj'
      have key : i = i' := by
        have hs' : pedge (pat14.new j') d' = pedge (pat14.new j) d ∨
            pedge (pat14.new j') d' = (pedge (pat14.new j) d).swap := by
          rcases hs with hs | hs
          · exact .inl (map2_inj hr.injL hs)
          · exact .inr (map2_inj hr.injL hs)
        have a := upne i
        have b := upne i'
        rcases hs' with hs' | hs' <;> rcases h2 with h2 | h2 <;> rcases h2' with h2' | h2' <;>
          rw [h2, h2'] at hs' <;> simp only [Prod.mk.injEq, Prod.swap] at hs' <;>
          first
          | exact (upinj _ _ hs'.1).symm
          | exact (upinj _ _ hs'.2).symm
          | exact absurd hs'.1 b
          | exact absurd hs'.2 b
          | exact absurd hs'.1.symm a
          | exact absurd hs'.2.symm a
      rw [Tet.undirEdge, Tet.undirEdge, eslot, eslot, h1, h1', key])
    (by
      intro i c hic
      exact absurd (by revert i c; decide) hic)
  have hrest := hq.rest
  refine hr.meshSurgery pat14_ok hm ?_ _ (by rw [hrest]) ?_ ?_ ⟨hq.ewf, hq.wf⟩ (by rw [hrest]) hq.tri
    k1 enew k2 k3
  · intro u hu j d hj
    have : ∀ j d, (∃ i b, pat14.old i b = pat14.new j d) ∨ pat14.new j d = 4 := by decide
    rcases this j d with ⟨i, b, hib⟩ | h
    · exact absurd ⟨i, b, by rw [hj, hib]⟩ hu
    · rw [h] at hj
      rw [hj]
      exact hp.hv
  · intro q hq'
    simp only [List.mem_cons, List.not_mem_nil, or_false] at hq'
    rcases hq' with rfl | rfl | rfl | rfl | rfl
    · refine ⟨0, w.edge, rfl, ?_⟩
      have : ∀ e, firstIdx e = perms e 0 := by decide
      rw [← this, hw]
      rfl
    · exact ⟨2, 3, rfl, rfl⟩
    · exact ⟨3, 2, rfl, rfl⟩
    · exact ⟨0, 1, rfl, rfl⟩
    · exact ⟨1, 0, rfl, rfl⟩
  · intro a
    rcases fin5 a with rfl | rfl | rfl | rfl | rfl
    · exact ⟨_, .tail _ (.head _)⟩
    · exact ⟨_, .tail _ (.tail _ (.head _))⟩
    · exact ⟨_, .tail _ (.tail _ (.tail _ (.head _)))⟩
    · exact ⟨_, .tail _ (.tail _ (.tail _ (.tail _ (.head _))))⟩
    · exact ⟨_, .head _⟩

end Tet
