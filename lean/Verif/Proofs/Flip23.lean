import Verif.Proofs.Pattern

/-! The 2-to-3 flip: what it does to the mesh. -/

namespace Tet
open Spec

variable {P V T : Type}

theorem bind_step {α β : Type} {x : Option α} {a : α} (h : x = some a) (f : α → Option β) :
    (x >>= f) = f a := by rw [h]; rfl

/-- A new tet of the 2-to-3 flip; `b`, `a` are the neighbours below and above. -/
def new23 (t : Tet T) (idn idp : TId) (va vb v3 v4 : VId) (adjB adjT : Walker) (b a : Tet T)
    (edge : EId) : Tet T where
  vertices := ![va, vb, v3, v4]
  opp := ![⟨idn, 1⟩, ⟨idp, 0⟩, adjB, adjT]
  edges := ![edge, a.undirEdge adjT.edge, a.undirEdge (pfe adjT.edge), b.undirEdge (pfe adjB.edge),
    b.undirEdge (nfe adjB.edge), a.undirEdge (nfe adjT.edge)]
  flags := { t.flags with locked :=
    ![false, false, b.flags.locked (face adjB.edge), a.flags.locked (face adjT.edge)] }
  value := t.value

theorem Mesh.flip23New_step (m : Mesh P V T) {id : TId} {t : Tet T} (idn idp : TId)
    (va vb v3 v4 : VId) {adjB adjT : Walker} {b a : Tet T} (edge : EId)
    (ht : m.tets.get id = some t) (hl : t.flags.locked = fun _ => false)
    (hb : m.tets.get adjB.tet = some b) (ha : m.tets.get adjT.tet = some a)
    (hbn : adjB.tet ≠ id) (han : adjT.tet ≠ id) :
    ∃ m', m.flip23New id idn idp va vb v3 v4 adjB adjT edge = some m' ∧ TStep m m' ∧
      ∀ j, m'.tets.get j = if j = id then
        some (new23 t idn idp va vb v3 v4 adjB adjT b a edge) else m.tets.get j := by
  obtain ⟨m1, e1, s1, g1⟩ := m.modTet_step (fun t => { t with
      vertices := ![va, vb, v3, v4]
      opp := ![⟨idn, 1⟩, ⟨idp, 0⟩, adjB, adjT]
      edges := Function.update t.edges 0 edge }) ht
  have gid1 : m1.tets.get id = _ := (g1 id).trans (if_pos rfl)
  have ga1 : m1.tets.get adjT.tet = some a := by rw [g1, if_neg han, ha]
  have gb1 : m1.tets.get adjB.tet = some b := by rw [g1, if_neg hbn, hb]
  obtain ⟨m2, e2, s2, g2⟩ := m1.copyEdge_step (adj := adjT) (i := 1) ga1 gid1
  have gid2 : m2.tets.get id = _ := (g2 id).trans (if_pos rfl)
  have ga2 : m2.tets.get adjT.tet = some a := by rw [g2, if_neg han, ga1]
  have gb2 : m2.tets.get adjB.tet = some b := by rw [g2, if_neg hbn, gb1]
  obtain ⟨m3, e3, s3, g3⟩ := m2.copyEdge_step (adj := adjT.pfe) (i := 2) ga2 gid2
  have gid3 : m3.tets.get id = _ := (g3 id).trans (if_pos rfl)
  have ga3 : m3.tets.get adjT.tet = some a := by rw [g3, if_neg han, ga2]
  have gb3 : m3.tets.get adjB.tet = some b := by rw [g3, if_neg hbn, gb2]
  obtain ⟨m4, e4, s4, g4⟩ := m3.copyEdge_step (adj := adjB.pfe) (i := 3) gb3 gid3
  have gid4 : m4.tets.get id = _ := (g4 id).trans (if_pos rfl)
  have ga4 : m4.tets.get adjT.tet = some a := by rw [g4, if_neg han, ga3]
  have gb4 : m4.tets.get adjB.tet = some b := by rw [g4, if_neg hbn, gb3]
  obtain ⟨m5, e5, s5, g5⟩ := m4.copyEdge_step (adj := adjB.nfe) (i := 4) gb4 gid4
  have gid5 : m5.tets.get id = _ := (g5 id).trans (if_pos rfl)
  have ga5 : m5.tets.get adjT.tet = some a := by rw [g5, if_neg han, ga4]
  have gb5 : m5.tets.get adjB.tet = some b := by rw [g5, if_neg hbn, gb4]
  obtain ⟨m6, e6, s6, g6⟩ := m5.copyEdge_step (adj := adjT.nfe) (i := 5) ga5 gid5
  have gid6 : m6.tets.get id = _ := (g6 id).trans (if_pos rfl)
  have ga6 : m6.tets.get adjT.tet = some a := by rw [g6, if_neg han, ga5]
  have gb6 : m6.tets.get adjB.tet = some b := by rw [g6, if_neg hbn, gb5]
  obtain ⟨m7, e7, s7, g7⟩ := m6.copyLock_step (adj := adjB) (i := 2) gb6 gid6
  have gid7 : m7.tets.get id = _ := (g7 id).trans (if_pos rfl)
  have ga7 : m7.tets.get adjT.tet = some a := by rw [g7, if_neg han, ga6]
  obtain ⟨m8, e8, s8, g8⟩ := m7.copyLock_step (adj := adjT) (i := 3) ga7 gid7
  have gid8 : m8.tets.get id = _ := (g8 id).trans (if_pos rfl)
  refine ⟨m8, ?_, ((((((s1.trans s2).trans s3).trans s4).trans s5).trans s6).trans s7).trans s8, ?_⟩
  · simp only [Mesh.flip23New, Option.bind_eq_bind, e1, e2, e3, e4, e5, e6, e7, e8, Option.bind_some]
  · intro j
    by_cases hj : j = id
    · subst hj
      rw [gid8, if_pos rfl]
      simp only [Tet.setEdge, Tet.setLocked, Walker.pfe, Walker.nfe]
      have hE : ∀ (E : Fin 6 → EId) (x0 x1 x2 x3 x4 x5 : EId),
          Function.update (Function.update (Function.update (Function.update (Function.update
            (Function.update E 0 x0) 1 x1) 2 x2) 3 x3) 4 x4) 5 x5 = ![x0, x1, x2, x3, x4, x5] := by
        intro E x0 x1 x2 x3 x4 x5
        funext i
        fin_cases i <;> rfl
      have hL : ∀ x y : Bool, (if y = true then Function.update (if x = true then
          Function.update (fun _ => false) 2 true else fun _ => false : Fin 4 → Bool) 3 true
          else (if x = true then Function.update (fun _ => false) 2 true else fun _ => false)) =
          ![false, false, x, y] := by
        intro x y
        funext i
        cases x <;> cases y <;> fin_cases i <;> rfl
      have hL' := hL (b.flags.locked (face adjB.edge)) (a.flags.locked (face adjT.edge))
      simp only [new23]
      cases hx : b.flags.locked (face adjB.edge) <;> cases hy : a.flags.locked (face adjT.edge) <;>
        simp only [hx, hy, hE, hl, if_true, if_false, Bool.false_eq_true] at hL' ⊢ <;>
        simp only [← hL'] <;> congr 2
      rw [← hl]
    · rw [g8, g7, g6, g5, g4, g3, g2, g1]
      simp only [hj, if_false]

/-- What is assumed of a 2-to-3 flip at `w`. -/
structure Pre23 (m : Mesh P V T) (w : Walker) (t0 t1 : Tet T) : Prop where
  h0 : m.tets.get w.tet = some t0
  h1 : m.tets.get (t0.adj w.edge).tet = some t1
  ne : t0.fourth w.edge ≠ t1.fourth (t0.adj w.edge).edge
  roomT : m.tets.size < idMax
  roomE : m.edges.size < idMax

/-- Redirections of the 2-to-3 flip. -/
def redir23 (w o : Walker) (id2 : TId) : List (Walker × TId × Code) :=
  [(w.perm P1032, w.tet, (w.perm P1032).edge), (w.perm P0231, o.tet, (w.perm P0231).edge),
   (w.perm P2130, id2, (w.perm P2130).edge), (o.perm P1032, w.tet, o.edge),
   (o.perm P2130, o.tet, o.nfe.edge), (o.perm P0231, id2, o.pfe.edge)]

/-- The result of a 2-to-3 flip. -/
structure Post23 (m m' : Mesh P V T) (w : Walker) (t0 t1 : Tet T) (o : Walker) (id2 : TId) (eid : EId)
    (at0 at1 at2 ab0 ab1 ab2 : Tet T) : Prop where
  id2_free : m.tets.get id2 = none
  id2_lt : id2 < idMax
  nt0 : m.tets.get (t0.adj (toPerm w.edge P1032)).tet = some at0
  nt1 : m.tets.get (t0.adj (toPerm w.edge P0231)).tet = some at1
  nt2 : m.tets.get (t0.adj (toPerm w.edge P2130)).tet = some at2
  nb0 : m.tets.get (t1.adj (toPerm o.edge P1032)).tet = some ab0
  nb1 : m.tets.get (t1.adj (toPerm o.edge P2130)).tet = some ab1
  nb2 : m.tets.get (t1.adj (toPerm o.edge P0231)).tet = some ab2
  get : ∀ j, m'.tets.get j =
    if j = w.tet then some (new23 t0 o.tet id2 (t0.second w.edge) (t0.first w.edge)
      (t0.fourth w.edge) (t1.fourth o.edge) (t1.adj (toPerm o.edge P1032))
      (t0.adj (toPerm w.edge P1032)) ab0 at0 eid)
    else if j = o.tet then some (new23 t1 id2 w.tet (t0.first w.edge) (t0.third w.edge)
      (t0.fourth w.edge) (t1.fourth o.edge) (t1.adj (toPerm o.edge P2130))
      (t0.adj (toPerm w.edge P0231)) ab1 at1 eid)
    else if j = id2 then some (new23 t0 w.tet o.tet (t0.third w.edge) (t0.second w.edge)
      (t0.fourth w.edge) (t1.fourth o.edge) (t1.adj (toPerm o.edge P0231))
      (t0.adj (toPerm w.edge P2130)) ab2 at2 eid)
    else (m.tets.get j).map (patch [w.tet, o.tet] (target (redir23 w o id2)))
  rest : m' = { m with
    vertices := setTets m.vertices [(t0.second w.edge, ⟨w.tet, 3⟩), (t0.first w.edge, ⟨o.tet, 3⟩),
      (t0.third w.edge, ⟨id2, 3⟩), (t0.fourth w.edge, ⟨w.tet, 1⟩), (t1.fourth o.edge, ⟨w.tet, 0⟩)]
    edges := m'.edges, tets := m'.tets, triMap := m'.triMap }
  edges : m.edges.insert (UEdge.new (t0.fourth w.edge, t1.fourth o.edge)) = some (m'.edges, eid)
  wf : m'.tets.WF
  size : m'.tets.size = m.tets.size + 1
  tri : TriUpd m m' [w.tet, o.tet] [w.tet, o.tet, id2]

theorem Mesh.insertTet_step {m : Mesh P V T} (hm : m.tets.WF) (hr : m.tets.size < idMax) (t : Tet T) :
    ∃ ts k, m.insertTet t = some ({ m with tets := ts }, k) ∧ ts.WF ∧ m.tets.get k = none ∧
      k < idMax ∧ (∀ j, ts.get j = if j = k then some t else m.tets.get j) ∧
      ts.size = m.tets.size + 1 := by
  obtain ⟨ts, k, h⟩ := IdMap.insert_isSome (v := t) hm hr
  obtain ⟨h1, h2, h3, h4, h5⟩ := IdMap.insert_some hm h
  exact ⟨ts, k, by simp [Mesh.insertTet, h], h1, h2, h3, h4, h5⟩

theorem Tet.clear_all (t : Tet T) : (t.clearLocked [0, 1, 2, 3]).flags.locked = fun _ => false := by
  funext i
  fin_cases i <;> simp [Tet.clearLocked]

theorem flip23_exec {m : Mesh P V T} (hm : ConsistentT m) {w : Walker} {t0 t1 : Tet T}
    (hp : Pre23 m w t0 t1) :
    ∃ m' id2 eid at0 at1 at2 ab0 ab1 ab2,
      m.flip23Unchecked w = some (m', [⟨w.tet, 2⟩, ⟨(t0.adj w.edge).tet, 2⟩, ⟨id2, 2⟩]) ∧
      Post23 m m' w t0 t1 (t0.adj w.edge) id2 eid at0 at1 at2 ab0 ab1 ab2 := by
  obtain ⟨h0, h1, hne, hroomT, hroomE⟩ := hp
  have hback : t1.adj (t0.adj w.edge).edge = w := by
    obtain ⟨t', a, b, -⟩ := hm.adj w.tet t0 w.edge h0
    rw [h1] at a
    cases a
    exact b
  generalize ho : t0.adj w.edge = o at *
  have hid01 : o.tet ≠ w.tet := ho ▸ hm.adj.no_self hm.distinct h0 w.edge
  -- the outer neighbours
  have out0 : ∀ c, face (toPerm w.edge c) ≠ face w.edge →
      (t0.adj (toPerm w.edge c)).tet ≠ w.tet ∧ (t0.adj (toPerm w.edge c)).tet ≠ o.tet ∧
      ∃ u, m.tets.get (t0.adj (toPerm w.edge c)).tet = some u := by
    intro c hc
    refine ⟨hm.adj.no_self hm.distinct h0 _, ?_, ?_⟩
    · intro h
      have := hm.adj.two_faces hm.distinct h0 (by rw [ho]; exact h1) hc (by rw [h, ho])
      rw [ho] at this
      exact hne this
    · obtain ⟨u, hu, -⟩ := hm.adj w.tet t0 (toPerm w.edge c) h0
      exact ⟨u, hu⟩
  have out1 : ∀ c, face (toPerm o.edge c) ≠ face o.edge →
      (t1.adj (toPerm o.edge c)).tet ≠ w.tet ∧ (t1.adj (toPerm o.edge c)).tet ≠ o.tet ∧
      ∃ u, m.tets.get (t1.adj (toPerm o.edge c)).tet = some u := by
    intro c hc
    refine ⟨?_, hm.adj.no_self hm.distinct h1 _, ?_⟩
    · intro h
      have := hm.adj.two_faces hm.distinct h1 (by rw [hback]; exact h0) hc (by rw [h, hback])
      rw [hback] at this
      exact hne this.symm
    · obtain ⟨u, hu, -⟩ := hm.adj o.tet t1 (toPerm o.edge c) h1
      exact ⟨u, hu⟩
  have fne : ∀ e, face (toPerm e P1032) ≠ face e ∧ face (toPerm e P0231) ≠ face e ∧
    face (toPerm e P2130) ≠ face e := by decide
  obtain ⟨p1, p2, at0, p3⟩ := out0 P1032 (fne _).1
  obtain ⟨q1, q2, at1, q3⟩ := out0 P0231 (fne _).2.1
  obtain ⟨r1, r2, at2, r3⟩ := out0 P2130 (fne _).2.2
  obtain ⟨p1', p2', ab0, p3'⟩ := out1 P1032 (fne _).1
  obtain ⟨q1', q2', ab1, q3'⟩ := out1 P2130 (fne _).2.2
  obtain ⟨r1', r2', ab2, r3'⟩ := out1 P0231 (fne _).2.1
  -- insert a tet, clear the lock flags
  obtain ⟨ts, id2, e1, wf1, fr, lt, g1, sz1⟩ := Mesh.insertTet_step hm.stored.2.2 hroomT t0
  have n20 : id2 ≠ w.tet := by rintro rfl; simp [h0] at fr
  have n21 : id2 ≠ o.tet := by rintro rfl; simp [h1] at fr
  have fresh : ∀ {k u}, m.tets.get k = some u → k ≠ id2 := by
    rintro k u h rfl; simp [h] at fr
  obtain ⟨mA1, eA1, sA1, gA1⟩ := ({ m with tets := ts } : Mesh P V T).modTet_step
    (k := w.tet) (t := t0) (·.clearLocked [0, 1, 2, 3])
    (by rw [g1, if_neg n20.symm, h0])
  obtain ⟨mA2, eA2, sA2, gA2⟩ := mA1.modTet_step
    (k := o.tet) (t := t1) (·.clearLocked [0, 1, 2, 3])
    (by rw [gA1, if_neg hid01, g1, if_neg n21.symm, h1])
  obtain ⟨mA3, eA3, sA3, gA3⟩ := mA2.modTet_step
    (k := id2) (t := t0) (·.clearLocked [0, 1, 2, 3])
    (by rw [gA2, if_neg n21, gA1, if_neg n20, g1, if_pos rfl])
  have G0 : mA3.tets.get w.tet = some (t0.clearLocked [0, 1, 2, 3]) := by
    rw [gA3, if_neg n20.symm, gA2, if_neg hid01.symm, gA1, if_pos rfl]
  have G1 : mA3.tets.get o.tet = some (t1.clearLocked [0, 1, 2, 3]) := by
    rw [gA3, if_neg n21.symm, gA2, if_pos rfl]
  have G2 : mA3.tets.get id2 = some (t0.clearLocked [0, 1, 2, 3]) := by
    rw [gA3, if_pos rfl]
  have GG : ∀ j, j ∉ [w.tet, o.tet, id2] → mA3.tets.get j = m.tets.get j := by
    intro j hj
    simp only [List.mem_cons, List.not_mem_nil, or_false, not_or] at hj
    rw [gA3, if_neg hj.2.2, gA2, if_neg hj.2.1, gA1, if_neg hj.1, g1, if_neg hj.2.2]
  have sA := (sA1.trans sA2).trans sA3
  obtain ⟨tm, eTR, hTR⟩ := Mesh.triRemoveTets_spec [w.tet, o.tet] mA3 (by
    intro k hk
    simp only [List.mem_cons, List.not_mem_nil, or_false] at hk
    rcases hk with rfl | rfl
    · exact ⟨_, G0⟩
    · exact ⟨_, G1⟩)
  -- redirect the neighbours
  have I0 : RInv m { mA3 with triMap := tm } [w.tet, o.tet, id2] mA3.tets.get [] := by
    refine ⟨fun _ _ => rfl, fun j hj => ?_⟩
    show mA3.tets.get j = _
    rw [GG j hj]
    show _ = (m.tets.get j).map id
    simp
  have mem0 : w.tet ∈ [w.tet, o.tet, id2] := by simp
  have mem1 : o.tet ∈ [w.tet, o.tet, id2] := by simp
  have notin : ∀ {a : TId} {u}, a ≠ w.tet → a ≠ o.tet → m.tets.get a = some u →
      a ∉ [w.tet, o.tet, id2] := by
    intro a u ha hb hu
    simp only [List.mem_cons, List.not_mem_nil, or_false, not_or]
    exact ⟨ha, hb, fresh hu⟩
  obtain ⟨m1, f1, s1, I1⟩ := I0.redirect p3 (notin p1 p2 p3) w.tet (w.perm P1032).edge
  have a1 := I0.toAdj (x := w.perm P1032) mem0 G0
  obtain ⟨m2, f2, s2, I2⟩ := I1.redirect q3 (notin q1 q2 q3) o.tet (w.perm P0231).edge
  have a2 := I1.toAdj (x := w.perm P0231) mem0 G0
  obtain ⟨m3, f3, s3, I3⟩ := I2.redirect r3 (notin r1 r2 r3) id2 (w.perm P2130).edge
  have a3 := I2.toAdj (x := w.perm P2130) mem0 G0
  obtain ⟨m4, f4, s4, I4⟩ := I3.redirect p3' (notin p1' p2' p3') w.tet o.edge
  have a4 := I3.toAdj (x := o.perm P1032) mem1 G1
  obtain ⟨m5, f5, s5, I5⟩ := I4.redirect q3' (notin q1' q2' q3') o.tet o.nfe.edge
  have a5 := I4.toAdj (x := o.perm P2130) mem1 G1
  obtain ⟨m6, f6, s6, I6⟩ := I5.redirect r3' (notin r1' r2' r3') id2 o.pfe.edge
  have a6 := I5.toAdj (x := o.perm P0231) mem1 G1
  have sB := ((((s1.trans s2).trans s3).trans s4).trans s5).trans s6
  have Ln : ∀ j t, j ∉ [w.tet, o.tet] → m.tets.get j = some t →
      patches ([] ++ [(t0.adj (toPerm w.edge P1032), w.tet, (w.perm P1032).edge)] ++
        [(t0.adj (toPerm w.edge P0231), o.tet, (w.perm P0231).edge)] ++
        [(t0.adj (toPerm w.edge P2130), id2, (w.perm P2130).edge)] ++
        [(t1.adj (toPerm o.edge P1032), w.tet, o.edge)] ++
        [(t1.adj (toPerm o.edge P2130), o.tet, o.nfe.edge)] ++
        [(t1.adj (toPerm o.edge P0231), id2, o.pfe.edge)]) j t =
      patch [w.tet, o.tet] (target (redir23 w o id2)) t := by
    intro j t hj ht
    have := patches_eq_patch hm.adj [w.tet, o.tet] (redir23 w o id2)
      (fun x => if x.tet = w.tet then t0.adj x.edge else t1.adj x.edge) ?_ ?_ ?_ hj ht
    · rw [← this]
      simp [redir23, Walker.perm, hid01]
    · intro r hr
      simp only [redir23, List.mem_cons, List.not_mem_nil, or_false] at hr
      simp only [List.mem_cons, List.not_mem_nil, or_false, not_or]
      rcases hr with rfl | rfl | rfl | rfl | rfl | rfl <;> simp only [Walker.perm, if_true, hid01, if_false]
      · exact ⟨.inl trivial, t0, h0, rfl, p1, p2⟩
      · exact ⟨.inl trivial, t0, h0, rfl, q1, q2⟩
      · exact ⟨.inl trivial, t0, h0, rfl, r1, r2⟩
      · exact ⟨.inr trivial, t1, h1, rfl, p1', p2'⟩
      · exact ⟨.inr trivial, t1, h1, rfl, q1', q2'⟩
      · exact ⟨.inr trivial, t1, h1, rfl, r1', r2'⟩
    · intro x t hx ht hout
      have faces : ∀ e x, face x ≠ face e → face (toPerm e P1032) = face x ∨
        face (toPerm e P0231) = face x ∨ face (toPerm e P2130) = face x := by decide
      simp only [List.mem_cons, List.not_mem_nil, or_false, not_or] at hx hout
      rcases hx with hx | hx
      · rw [hx, h0] at ht
        cases ht
        have hf : face x.edge ≠ face w.edge := by
          intro hf
          apply hout.2
          rw [Tet.adj_tet, hf, ← Tet.adj_tet, ho]
        rcases faces _ _ hf with h | h | h
        · exact ⟨_, by simp only [redir23, List.mem_cons]; exact .inl rfl, hx.symm, h⟩
        · exact ⟨_, by simp only [redir23, List.mem_cons]; exact .inr (.inl rfl), hx.symm, h⟩
        · exact ⟨_, by simp only [redir23, List.mem_cons]; exact .inr (.inr (.inl rfl)), hx.symm, h⟩
      · rw [hx, h1] at ht
        cases ht
        have hf : face x.edge ≠ face o.edge := by
          intro hf
          apply hout.1
          rw [Tet.adj_tet, hf, ← Tet.adj_tet, hback]
        rcases faces _ _ hf with h | h | h
        · exact ⟨_, by simp only [redir23, List.mem_cons]; exact .inr (.inr (.inr (.inl rfl))), hx.symm, h⟩
        · exact ⟨_, by simp only [redir23, List.mem_cons]; exact .inr (.inr (.inr (.inr (.inr (.inl rfl))))),
            hx.symm, h⟩
        · exact ⟨_, by simp only [redir23, List.mem_cons]; exact .inr (.inr (.inr (.inr (.inl rfl)))),
            hx.symm, h⟩
    · have dist : ∀ e, face (toPerm e P1032) ≠ face (toPerm e P0231) ∧
        face (toPerm e P1032) ≠ face (toPerm e P2130) ∧
        face (toPerm e P0231) ≠ face (toPerm e P2130) := by decide
      simp [redir23, Walker.perm, hid01.symm, hid01, dist, (dist _).1, (dist _).2.1, (dist _).2.2,
        (dist _).2.2.symm]
  have J6 : ∀ j, j ∉ [w.tet, o.tet, id2] → m6.tets.get j =
      (m.tets.get j).map (patch [w.tet, o.tet] (target (redir23 w o id2))) := by
    intro j hj
    rw [I6.2 j hj]
    cases hg : m.tets.get j with
    | none => rfl
    | some t =>
      have : j ∉ [w.tet, o.tet] := by
        simp only [List.mem_cons, List.not_mem_nil, or_false, not_or] at hj ⊢
        exact ⟨hj.1, hj.2.1⟩
      exact congrArg some (Ln j t this hg)
  have K0 : m6.tets.get w.tet = _ := (I6.1 _ mem0).trans G0
  have K1 : m6.tets.get o.tet = _ := (I6.1 _ mem1).trans G1
  have K2 : m6.tets.get id2 = _ := (I6.1 id2 (by simp)).trans G2
  have e4 : m6.tet4 w = some (t0.first w.edge, t0.second w.edge, t0.third w.edge, t0.fourth w.edge) := by
    simp only [Mesh.tet4, K0, Option.map_some]; rfl
  have e5 : m6.fourth o = some (t1.fourth o.edge) := by
    simp only [Mesh.fourth, K1, Option.map_some]; rfl
  -- the other fields
  have hrest : m6 = { m with tets := m6.tets, triMap := tm } := by
    have h := sB.eq
    have h' := sA.eq
    rw [h, h']
  have hedges : m6.edges = m.edges := by rw [hrest]
  obtain ⟨es, eid, eE⟩ := IdMap.insert_isSome
    (v := UEdge.new (t0.fourth w.edge, t1.fourth o.edge)) hm.stored.2.1 hroomE
  generalize hm7 : ({ m6 with
    vertices := setTets m6.vertices [(t0.second w.edge, ⟨w.tet, 3⟩), (t0.first w.edge, ⟨o.tet, 3⟩),
      (t0.third w.edge, ⟨id2, 3⟩), (t0.fourth w.edge, ⟨w.tet, 1⟩), (t1.fourth o.edge, ⟨w.tet, 0⟩)]
    edges := es } : Mesh P V T) = m7
  have t7 : m7.tets = m6.tets := by rw [← hm7]
  have pget : ∀ {a : TId} {u}, a ≠ w.tet → a ≠ o.tet → m.tets.get a = some u → m6.tets.get a =
      some (patch [w.tet, o.tet] (target (redir23 w o id2)) u) := by
    intro a u ha hb hu
    rw [J6 _ (notin ha hb hu), hu]; rfl
  -- the new tets
  obtain ⟨m8, x8, s8, g8⟩ := m7.flip23New_step o.tet id2 (t0.second w.edge) (t0.first w.edge)
    (t0.fourth w.edge) (t1.fourth o.edge) eid (t7 ▸ K0) (Tet.clear_all _)
    (t7 ▸ pget p1' p2' p3') (t7 ▸ pget p1 p2 p3) p1' p1
  obtain ⟨m9, x9, s9, g9⟩ := m8.flip23New_step (id := o.tet) id2 w.tet (t0.first w.edge) (t0.third w.edge)
    (t0.fourth w.edge) (t1.fourth o.edge) eid (by rw [g8, if_neg hid01, t7, K1]) (Tet.clear_all _)
    (by rw [g8, if_neg q1', t7, pget q1' q2' q3']) (by rw [g8, if_neg q1, t7, pget q1 q2 q3]) q2' q2
  obtain ⟨m10, x10, s10, g10⟩ := m9.flip23New_step (id := id2) w.tet o.tet (t0.third w.edge)
    (t0.second w.edge) (t0.fourth w.edge) (t1.fourth o.edge) eid
    (by rw [g9, if_neg n21, g8, if_neg n20, t7, K2]) (Tet.clear_all _)
    (by rw [g9, if_neg r2', g8, if_neg r1', t7, pget r1' r2' r3'])
    (by rw [g9, if_neg r2, g8, if_neg r1, t7, pget r1 r2 r3]) (fresh r3') (fresh r3)
  have sD := (s8.trans s9).trans s10
  have L0 : m10.tets.get w.tet = _ := (g10 _).trans ((if_neg n20.symm).trans ((g9 _).trans
    ((if_neg hid01.symm).trans ((g8 _).trans (if_pos rfl)))))
  have L1 : m10.tets.get o.tet = _ :=
    (g10 _).trans ((if_neg n21.symm).trans ((g9 _).trans (if_pos rfl)))
  have L2 : m10.tets.get id2 = _ := (g10 _).trans (if_pos rfl)
  obtain ⟨tm', eTI, hTI⟩ := Mesh.triInsertTets_spec [w.tet, o.tet, id2] m10 (by
    intro k hk
    simp only [List.mem_cons, List.not_mem_nil, or_false] at hk
    rcases hk with rfl | rfl | rfl
    · exact ⟨_, L0⟩
    · exact ⟨_, L1⟩
    · exact ⟨_, L2⟩)
  have hrest' : m10 = { m with
      vertices := setTets m.vertices [(t0.second w.edge, ⟨w.tet, 3⟩), (t0.first w.edge, ⟨o.tet, 3⟩),
      (t0.third w.edge, ⟨id2, 3⟩), (t0.fourth w.edge, ⟨w.tet, 1⟩), (t1.fourth o.edge, ⟨w.tet, 0⟩)]
      edges := es, tets := m10.tets, triMap := tm } := by
    rw [sD.eq, ← hm7, hrest]
  refine ⟨{ m10 with triMap := tm' }, id2, eid, at0, at1, at2, ab0, ab1, ab2, ?_, ?_⟩
  · have E0 : m.toAdj w = some o := by rw [Mesh.toAdj_eq h0, ho]
    have ins : ∀ (M7 : Mesh P V T), M7.edges = m.edges →
        M7.insertEdge (t0.fourth w.edge, t1.fourth o.edge) = some ({ M7 with edges := es }, eid) := by
      intro M7 h
      simp [Mesh.insertEdge, h, eE]
    have a1' : ({ mA3 with triMap := tm } : Mesh P V T).toAdj (w.perm P1032) =
      some (t0.adj (toPerm w.edge P1032)) := a1
    have a2' : m1.toAdj (w.perm P0231) = some (t0.adj (toPerm w.edge P0231)) := a2
    have a3' : m2.toAdj (w.perm P2130) = some (t0.adj (toPerm w.edge P2130)) := a3
    have a4' : m3.toAdj (o.perm P1032) = some (t1.adj (toPerm o.edge P1032)) := a4
    have a5' : m4.toAdj (o.perm P2130) = some (t1.adj (toPerm o.edge P2130)) := a5
    have a6' : m5.toAdj (o.perm P0231) = some (t1.adj (toPerm o.edge P0231)) := a6
    unfold Mesh.flip23Unchecked
    refine (bind_step E0 _).trans ?_
    refine (bind_step h0 _).trans ?_
    refine (bind_step e1 _).trans ?_
    refine (bind_step eA1 _).trans ?_
    refine (bind_step eA2 _).trans ?_
    refine (bind_step eA3 _).trans ?_
    refine (bind_step eTR _).trans ?_
    refine (bind_step a1' _).trans ?_
    refine (bind_step f1 _).trans ?_
    refine (bind_step a2' _).trans ?_
    refine (bind_step f2 _).trans ?_
    refine (bind_step a3' _).trans ?_
    refine (bind_step f3 _).trans ?_
    refine (bind_step a4' _).trans ?_
    refine (bind_step f4 _).trans ?_
    refine (bind_step a5' _).trans ?_
    refine (bind_step f5 _).trans ?_
    refine (bind_step a6' _).trans ?_
    refine (bind_step f6 _).trans ?_
    refine (bind_step e4 _).trans ?_
    refine (bind_step e5 _).trans ?_
    refine (bind_step (a := (m7, eid)) ?_ _).trans ?_
    · exact (ins _ (by exact hedges)).trans (by rw [← hm7]; rfl)
    refine (bind_step x8 _).trans ?_
    refine (bind_step x9 _).trans ?_
    refine (bind_step x10 _).trans ?_
    exact bind_step eTI _
  · refine ⟨fr, lt, p3, q3, r3, p3', q3', r3', ?_, ?_, ?_, ?_, ?_, ?_⟩
    · intro j
      show m10.tets.get j = _
      split_ifs with c0 c1 c2
      · subst c0; rw [L0]; rfl
      · subst c1; rw [L1]; rfl
      · subst c2; rw [L2]; rfl
      · rw [g10, if_neg c2, g9, if_neg c1, g8, if_neg c0, t7]
        exact J6 j (by simp [c0, c1, c2])
    · show ({ m10 with triMap := tm' } : Mesh P V T) = _
      rw [hrest']
    · show _ = some (m10.edges, eid)
      rw [eE, hrest']
    · exact sD.wf (t7 ▸ sB.wf (sA.wf wf1))
    · show m10.tets.size = _
      rw [sD.size, t7, sB.size]
      exact sA.size.trans sz1
    · refine TriUpd.of (ma := mA3) (mb := m10) (tm := tm) ?_ ?_ ?_ ?_ ?_ hTR hTI
      · rw [sA.eq]
      · rw [hrest']
      · rw [sA.eq]
      · rw [hrest']
      · intro k hk
        simp only [List.mem_cons, List.not_mem_nil, or_false] at hk
        rcases hk with rfl | rfl
        · exact ⟨_, _, h0, G0, rfl⟩
        · exact ⟨_, _, h1, G1, rfl⟩

def pat23 : Pat 5 2 3 where
  old := ![![1, 0, 2, 3], ![0, 1, 2, 4]]
  new := ![![0, 1, 3, 4], ![1, 2, 3, 4], ![2, 0, 3, 4]]
  oin := fun _ f => decide (f = 3)
  nin := ![![some (1, 1), some (2, 0), none, none], ![some (2, 1), some (0, 0), none, none],
    ![some (0, 1), some (1, 0), none, none]]
  tgt := ![![(2, P2130), (1, P0231), (0, P1032), (0, 0)], ![(1, P1203), (2, P2013), (0, P0123), (0, 0)]]
  src := ![![(0, 0), (0, 0), (1, P1032), (0, P1032)], ![(0, 0), (0, 0), (1, P2130), (0, P0231)],
    ![(0, 0), (0, 0), (1, P0231), (0, P2130)]]

set_option maxRecDepth 10000 in
theorem pat23_ok : pat23.OK where
  tgt_tri := by decide
  tgt_out := by decide
  src_tgt := by decide
  tgt_src := by decide
  glue := by unfold pat23; decide
  inj := by unfold Function.Injective; decide
  tin := by decide
  rin := by decide

theorem permInv_rel (r b c : Code) : permInv (toPerm r b) (toPerm r c) = permInv b c := by
  have : toPerm r c = toPerm (toPerm r b) (permInv b c) := by
    rw [toPerm_assoc, toPerm_permInv]
  rw [this, permInv_toPerm]

theorem permInv_rel' (r c : Code) : permInv r (toPerm r c) = permInv P0123 c := by
  have := permInv_rel r P0123 c
  rwa [toPerm_P0123] at this

theorem face_rel (r b c : Code) : face (toPerm r b) = face (toPerm r c) ↔ face b = face c := by
  rw [face_eq, face_eq, perms_toPerm, perms_toPerm, face_eq, face_eq]
  exact ⟨perms_injective r _ _, fun h => by rw [h]⟩

theorem target_cons (x : Walker × TId × Code) (R) (k f) :
    target (x :: R) k f = if x.1.tet = k ∧ face x.1.edge = f then x.2 else target R k f := by
  simp only [target, List.find?_cons, hit]
  by_cases h : x.1.tet = k ∧ face x.1.edge = f <;> simp [h]

theorem face_vals : face P1032 = 2 ∧ face P0231 = 1 ∧ face P2130 = 0 ∧ face P0123 = 3 := by decide

theorem moved23 {w o : Walker} (hne : o.tet ≠ w.tet) (id2 : TId) (i : Fin 2) (c : Code)
    (hc : pat23.oin i (face c) = false) :
    moved (target (redir23 w o id2)) ⟨(![w.tet, o.tet] : Fin 2 → TId) i,
      toPerm ((![w.edge, o.edge] : Fin 2 → Code) i) c⟩ =
    ⟨(![w.tet, o.tet, id2] : Fin 3 → TId) (pat23.ntgt i c).1, (pat23.ntgt i c).2⟩ := by
  have hne' := hne.symm
  have n : o.nfe.edge = toPerm o.edge P1203 := nfe_eq _
  have n' : o.pfe.edge = toPerm o.edge P2013 := pfe_eq _
  have hf : face c = 0 ∨ face c = 1 ∨ face c = 2 := by
    have : ∀ f : Fin 4, pat23.oin i f = false → f = 0 ∨ f = 1 ∨ f = 2 := by decide +revert
    exact this _ hc
  have hi : ∀ i : Fin 2, i = 0 ∨ i = 1 := by decide
  rcases hi i with rfl | rfl <;> rcases hf with hf | hf | hf <;>
    simp [moved, redir23, target_cons, Walker.perm, face_rel, hf, face_vals, hne, hne', n, n', pat23,
      Pat.ntgt, permInv_rel, permInv_rel']

/-- Forward direction of the facts at a face. -/
theorem tri_facts {M : TMap T} (hA : AdjT M) {k t t1 e} (h : M k = some t)
    (h1 : M (t.adj e).tet = some t1) : t1.adj (t.adj e).edge = ⟨k, e⟩ ∧
      t1.first (t.adj e).edge = t.second e ∧ t1.second (t.adj e).edge = t.first e ∧
      t1.third (t.adj e).edge = t.third e := by
  obtain ⟨t', a, b, c⟩ := hA k t e h
  rw [h1] at a
  cases a
  simp only [Tet.tri, Prod.mk.injEq] at c
  exact ⟨b, c.1, c.2.1, c.2.2⟩

/-- The three new tets. -/
def tets23 (w o : Walker) (t0 t1 : Tet T) (id2 : TId) (eid : EId) (at0 at1 at2 ab0 ab1 ab2 : Tet T) :
    Fin 3 → Tet T :=
  ![new23 t0 o.tet id2 (t0.second w.edge) (t0.first w.edge)
      (t0.fourth w.edge) (t1.fourth o.edge) (t1.adj (toPerm o.edge P1032))
      (t0.adj (toPerm w.edge P1032)) ab0 at0 eid,
    new23 t1 id2 w.tet (t0.first w.edge) (t0.third w.edge)
      (t0.fourth w.edge) (t1.fourth o.edge) (t1.adj (toPerm o.edge P2130))
      (t0.adj (toPerm w.edge P0231)) ab1 at1 eid,
    new23 t0 w.tet o.tet (t0.third w.edge) (t0.second w.edge)
      (t0.fourth w.edge) (t1.fourth o.edge) (t1.adj (toPerm o.edge P0231))
      (t0.adj (toPerm w.edge P2130)) ab2 at2 eid]

theorem fin2 : ∀ i : Fin 2, i = 0 ∨ i = 1 := by decide
theorem fin3 : ∀ i : Fin 3, i = 0 ∨ i = 1 ∨ i = 2 := by decide
theorem fin4 : ∀ i : Fin 4, i = 0 ∨ i = 1 ∨ i = 2 ∨ i = 3 := by decide
theorem fin5 : ∀ i : Fin 5, i = 0 ∨ i = 1 ∨ i = 2 ∨ i = 3 ∨ i = 4 := by decide
theorem fin6 : ∀ i : Fin 6, i = 0 ∨ i = 1 ∨ i = 2 ∨ i = 3 ∨ i = 4 ∨ i = 5 := by decide

theorem inj5 {a b c d e : Nat} (h : a ≠ b ∧ a ≠ c ∧ a ≠ d ∧ a ≠ e ∧ b ≠ c ∧ b ≠ d ∧ b ≠ e ∧ c ≠ d ∧
    c ≠ e ∧ d ≠ e) : Function.Injective (![a, b, c, d, e] : Fin 5 → Nat) := by
  obtain ⟨h1, h2, h3, h4, h5, h6, h7, h8, h9, h10⟩ := h
  intro x y hxy
  rcases fin5 x with rfl | rfl | rfl | rfl | rfl <;> rcases fin5 y with rfl | rfl | rfl | rfl | rfl <;>
    first
    | rfl
    | (exfalso; simp only [Matrix.cons_val] at hxy; omega)

theorem Tet.distinct_vals {t : Tet T} (h : Function.Injective t.vertices) (e : Code) :
    t.first e ≠ t.second e ∧ t.first e ≠ t.third e ∧ t.first e ≠ t.fourth e ∧ t.second e ≠ t.third e ∧
    t.second e ≠ t.fourth e ∧ t.third e ≠ t.fourth e := by
  simp only [Tet.first_eq, Tet.second_eq, Tet.third_eq, Tet.fourth_eq]
  refine ⟨?_, ?_, ?_, ?_, ?_, ?_⟩ <;> intro he <;>
    exact absurd (perms_injective _ _ _ (h he)) (by decide)

theorem real23 {m m' : Mesh P V T} (hm : ConsistentT m) {w o : Walker} {t0 t1 : Tet T}
    (ho : t0.adj w.edge = o)
    (hp : Pre23 m w t0 t1) {id2 eid at0 at1 at2 ab0 ab1 ab2}
    (hq : Post23 m m' w t0 t1 o id2 eid at0 at1 at2 ab0 ab1 ab2)
    (hno : ∀ k t e, m.tets.get k = some t → t.edge e ≠ (t0.fourth w.edge, t1.fourth o.edge)) :
    Pat.Real pat23 m m' [w.tet, o.tet] [w.tet, o.tet, id2]
      (target (redir23 w o id2)) ![w.tet, o.tet]
      ![w.tet, o.tet, id2] ![w.edge, o.edge] ![t0, t1]
      (tets23 w o t0 t1 id2 eid at0 at1 at2 ab0 ab1 ab2)
      ![t0.second w.edge, t0.first w.edge, t0.third w.edge, t0.fourth w.edge, t1.fourth o.edge] := by
  obtain ⟨h0, h1, hne, -, -⟩ := hp
  obtain ⟨hback, f1, f2, f3⟩ := tri_facts hm.adj h0 h1
  have hid01 : (t0.adj w.edge).tet ≠ w.tet := hm.adj.no_self hm.distinct h0 w.edge
  rw [ho] at h1 hne hback f1 f2 f3 hid01
  have n20 : id2 ≠ w.tet := by intro e; have := hq.id2_free; rw [e, h0] at this; simp at this
  have n21 : id2 ≠ o.tet := by intro e; have := hq.id2_free; rw [e, h1] at this; simp at this
  have d0 := Tet.distinct_vals (hm.distinct _ _ h0) w.edge
  have d1 := Tet.distinct_vals (hm.distinct _ _ h1) o.edge
  have f3ne : ∀ e c, face c ≠ 3 → face (toPerm e c) ≠ face e := by decide
  have out0 : ∀ c, face c ≠ 3 →
      (t0.adj (toPerm w.edge c)).tet ≠ w.tet ∧ (t0.adj (toPerm w.edge c)).tet ≠ o.tet := by
    intro c hc
    refine ⟨hm.adj.no_self hm.distinct h0 _, ?_⟩
    intro h
    have := hm.adj.two_faces hm.distinct h0 (by rw [ho]; exact h1) (f3ne _ _ hc) (by rw [h, ho])
    rw [ho] at this
    exact hne this
  have out1 : ∀ c, face c ≠ 3 →
      (t1.adj (toPerm o.edge c)).tet ≠ w.tet ∧ (t1.adj (toPerm o.edge c)).tet ≠ o.tet := by
    intro c hc
    refine ⟨?_, hm.adj.no_self hm.distinct h1 _⟩
    intro h
    have := hm.adj.two_faces hm.distinct h1 (by rw [hback]; exact h0) (f3ne _ _ hc) (by rw [h, hback])
    rw [hback] at this
    exact hne this.symm
  have in3 : ∀ r c, face c = 3 → face (toPerm r c) = face r := by decide
  refine ⟨?_, ?_, ?_, ?_, ?_, ?_, ?_, ?_, ?_, ?_, ?_, ?_, ?_, ?_, ?_, ?_, ?_, ?_, ?_, ?_⟩
  · intro k; simp [Fin.exists_fin_succ]
  · intro k; simp [Fin.exists_fin_succ]
  · intro i
    rcases fin2 i with rfl | rfl
    · exact h0
    · exact h1
  · intro i
    rcases fin3 i with rfl | rfl | rfl
    · exact (hq.get _).trans (if_pos rfl)
    · exact (hq.get _).trans ((if_neg hid01).trans (if_pos rfl))
    · exact (hq.get _).trans ((if_neg n20).trans ((if_neg n21).trans (if_pos rfl)))
  · intro i hi
    rcases fin3 i with rfl | rfl | rfl
    · exact absurd (by simp) hi
    · exact absurd (by simp) hi
    · exact hq.id2_free
  · intro i hi
    rcases fin2 i with rfl | rfl
    · exact absurd (by simp) hi
    · exact absurd (by simp) hi
  · intro k hk hk'
    simp only [List.mem_cons, List.not_mem_nil, or_false, not_or] at hk hk'
    exact (hq.get _).trans ((if_neg hk'.1).trans ((if_neg hk'.2.1).trans (if_neg hk'.2.2)))
  · apply inj5
    omega
  · intro i j
    rcases fin2 i with rfl | rfl <;> rcases fin4 j with rfl | rfl | rfl | rfl
    · exact (Tet.first_eq _ _).symm
    · exact (Tet.second_eq _ _).symm
    · exact (Tet.third_eq _ _).symm
    · exact (Tet.fourth_eq _ _).symm
    · exact (Tet.first_eq _ _).symm.trans f1
    · exact (Tet.second_eq _ _).symm.trans f2
    · exact (Tet.third_eq _ _).symm.trans f3
    · exact (Tet.fourth_eq _ _).symm
  · intro i j
    rcases fin3 i with rfl | rfl | rfl <;> rcases fin4 j with rfl | rfl | rfl | rfl <;> rfl
  · intro i c hc
    have hc3 : face c = 3 := of_decide_eq_true hc
    rcases fin2 i with rfl | rfl
    · show (t0.adj (toPerm w.edge c)).tet ∈ _
      rw [Tet.adj_tet, in3 _ _ hc3, ← Tet.adj_tet, ho]; simp
    · show (t1.adj (toPerm o.edge c)).tet ∈ _
      rw [Tet.adj_tet, in3 _ _ hc3, ← Tet.adj_tet, hback]; simp
  · intro i c hc
    have hc3 : face c ≠ 3 := of_decide_eq_false hc
    rcases fin2 i with rfl | rfl
    · simpa [not_or] using out0 c hc3
    · simpa [not_or] using out1 c hc3
  · exact moved23 hid01 id2
  · intro j f y hy
    rcases fin3 j with rfl | rfl | rfl <;> rcases fin4 f with rfl | rfl | rfl | rfl <;>
      first
      | (cases (show some _ = some y from hy); rfl)
      | exact absurd (show (none : Option (Fin 3 × Code)) = some y from hy) (by simp)
  · intro j f hf
    rcases fin3 j with rfl | rfl | rfl <;> rcases fin4 f with rfl | rfl | rfl | rfl <;>
      first
      | exact absurd hf (by decide)
      | rfl
  · intro j f hf
    rcases fin3 j with rfl | rfl | rfl <;> rcases fin4 f with rfl | rfl | rfl | rfl <;>
      first
      | exact absurd hf (by decide)
      | rfl
  · intro j f hf
    rcases fin3 j with rfl | rfl | rfl <;> rcases fin4 f with rfl | rfl | rfl | rfl <;>
      first
      | exact absurd hf (by decide)
      | exact hm.locks _ _ _ _ h1 hq.nb0
      | exact hm.locks _ _ _ _ h0 hq.nt0
      | exact hm.locks _ _ _ _ h1 hq.nb1
      | exact hm.locks _ _ _ _ h0 hq.nt1
      | exact hm.locks _ _ _ _ h1 hq.nb2
      | exact hm.locks _ _ _ _ h0 hq.nt2
  · intro j d
    have : ∀ j d, (∃ i c, pedge (pat23.old i) c = pedge (pat23.new j) d) ∨
      pedge (pat23.new j) d = (3, 4) ∨ pedge (pat23.new j) d = (4, 3) := by decide
    rcases this j d with h | h | h
    · exact .inl h
    · right
      rw [h]
      exact hno
    · right
      rw [h]
      intro k t e ht he
      refine hno k t (twin e) ht ?_
      rw [Surgery.edge_twin, he]
      rfl
  · intro i c
    left
    have : ∀ i c, ∃ j d, pedge (pat23.new j) d = pedge (pat23.old i) c := by decide
    exact this i c
  · intro j d hd k t e hk ht he
    have : ∀ j d, pat23.nin j (face d) ≠ none → ∃ x ∈ [d, nfe d, pfe d],
        pedge (pat23.new j) x = (3, 4) ∨ pedge (pat23.new j) x = (4, 3) := by
      unfold pat23; decide
    obtain ⟨x, hx, h2⟩ := this j d hd
    have hedge : ∃ y, t.edge y = (t0.fourth w.edge, t1.fourth o.edge) ∨
        t.edge y = (t1.fourth o.edge, t0.fourth w.edge) := by
      obtain ⟨y, hy⟩ := edge_of_tri he x hx
      rcases h2 with h2 | h2 <;> rw [h2] at hy
      · exact ⟨y, .inl hy⟩
      · exact ⟨y, .inr hy⟩
    obtain ⟨y, h3 | h3⟩ := hedge
    · exact hno k t y ht h3
    · refine hno k t (twin y) ht ?_
      rw [Surgery.edge_twin, h3]

/-- Where the edge ids of the new tets come from (slots 1 to 5). -/
def slot23 (j : Fin 3) : Fin 6 → Fin 2 × Code :=
  let pt : Code := ![P1032, P0231, P2130] j
  let pb : Code := ![P1032, P2130, P0231] j
  ![(0, 0), (0, pt), (0, nfe pt), (1, nfe pb), (1, pfe pb), (0, pfe pt)]

theorem slot23_ok : ∀ j s, s ≠ 0 →
    pedge (pat23.new j) (toUndirEdge s) = pedge (pat23.old (slot23 j s).1) (slot23 j s).2 ∨
    pedge (pat23.new j) (toUndirEdge s) = (pedge (pat23.old (slot23 j s).1) (slot23 j s).2).swap := by
  decide

theorem flip23_surgery {m m' : Mesh P V T} (hm : ConsistentT m) {w o : Walker} {t0 t1 : Tet T}
    (ho : t0.adj w.edge = o)
    (hp : Pre23 m w t0 t1) {id2 eid at0 at1 at2 ab0 ab1 ab2}
    (hq : Post23 m m' w t0 t1 o id2 eid at0 at1 at2 ab0 ab1 ab2)
    (hno : ∀ k t e, m.tets.get k = some t → t.edge e ≠ (t0.fourth w.edge, t1.fourth o.edge)) :
    MeshSurgery m m' [w.tet, o.tet] [w.tet, o.tet, id2] (target (redir23 w o id2)) := by
  have hr := real23 hm ho hp hq hno
  have h0 := hp.h0
  have h1 := hp.h1
  rw [ho] at h1
  obtain ⟨ewf, efr, -, eget, -⟩ := IdMap.insert_some hm.stored.2.1 hq.edges
  have hkeep : ∀ e ue, m.edges.get e = some ue → m'.edges.get e = some ue := by
    intro e ue he
    rw [eget, if_neg, he]
    rintro rfl
    rw [efr] at he
    simp at he
  have eslot : ∀ j s, s ≠ 0 → (tets23 w o t0 t1 id2 eid at0 at1 at2 ab0 ab1 ab2 j).edges s =
      ((![t0, t1] : Fin 2 → Tet T) (slot23 j s).1).undirEdge
        (toPerm ((![w.edge, o.edge] : Fin 2 → Code) (slot23 j s).1) (slot23 j s).2) := by
    intro j s hs
    rcases fin3 j with rfl | rfl | rfl <;> rcases fin6 s with rfl | rfl | rfl | rfl | rfl | rfl <;>
      first
      | exact absurd rfl hs
      | exact nbr_undir hm h0 hq.nt0
      | exact nbr_undir hm h0 hq.nt1
      | exact nbr_undir hm h0 hq.nt2
      | exact (nbr_undir_pfe hm h0 hq.nt0).trans (congrArg _ (toPerm_nfe _ _).symm)
      | exact (nbr_undir_pfe hm h0 hq.nt1).trans (congrArg _ (toPerm_nfe _ _).symm)
      | exact (nbr_undir_pfe hm h0 hq.nt2).trans (congrArg _ (toPerm_nfe _ _).symm)
      | exact (nbr_undir_nfe hm h0 hq.nt0).trans (congrArg _ (toPerm_pfe _ _).symm)
      | exact (nbr_undir_nfe hm h0 hq.nt1).trans (congrArg _ (toPerm_pfe _ _).symm)
      | exact (nbr_undir_nfe hm h0 hq.nt2).trans (congrArg _ (toPerm_pfe _ _).symm)
      | exact (nbr_undir_pfe hm h1 hq.nb0).trans (congrArg _ (toPerm_nfe _ _).symm)
      | exact (nbr_undir_pfe hm h1 hq.nb1).trans (congrArg _ (toPerm_nfe _ _).symm)
      | exact (nbr_undir_pfe hm h1 hq.nb2).trans (congrArg _ (toPerm_nfe _ _).symm)
      | exact (nbr_undir_nfe hm h1 hq.nb0).trans (congrArg _ (toPerm_pfe _ _).symm)
      | exact (nbr_undir_nfe hm h1 hq.nb1).trans (congrArg _ (toPerm_pfe _ _).symm)
      | exact (nbr_undir_nfe hm h1 hq.nb2).trans (congrArg _ (toPerm_pfe _ _).symm)
  have eslot0 : ∀ j, (tets23 w o t0 t1 id2 eid at0 at1 at2 ab0 ab1 ab2 j).edges 0 = eid := by
    intro j
    rcases fin3 j with rfl | rfl | rfl <;> rfl
  have enew := slots_enough (E := m'.edges.get) (tets23 w o t0 t1 id2 eid at0 at1 at2 ab0 ab1 ab2)
    ![t0.second w.edge, t0.first w.edge, t0.third w.edge, t0.fourth w.edge, t1.fourth o.edge]
    pat23.new (by
      intro j s
      by_cases hs : s = 0
      · subst hs
        refine ⟨_, by rw [eslot0, eget, if_pos rfl], ?_⟩
        have : ∀ j, pedge (pat23.new j) (toUndirEdge 0) = (4, 3) := by decide
        rw [this]
        exact (sorted2_eq_iff _ _).2 (.inr rfl)
      · rw [eslot j s hs]
        obtain ⟨ue, h2, h3⟩ := hm.eptr _ _ (toPerm ((![w.edge, o.edge] : Fin 2 → Code) (slot23 j s).1)
          (slot23 j s).2) (hr.getO (slot23 j s).1)
        refine ⟨ue, hkeep _ _ h2, h3.trans ?_⟩
        rw [hr.edgeO, sorted2_eq_iff]
        rcases slot23_ok j s hs with h4 | h4
        · exact .inl (by rw [h4])
        · exact .inr (by rw [h4]; rfl))
  have newedge : ∀ j d, (¬ ∃ i c, pedge (pat23.old i) c = pedge (pat23.new j) d) → undirIdx d = 0 := by
    decide
  obtain ⟨k1, k2, k3⟩ := hr.edges pat23_ok hm enew (fun e ue he => .inl (hkeep e ue he))
    (by
      intro e ue he
      rw [eget] at he
      split at he
      · rename_i hee
        refine .inr ⟨0, 0, hee.trans (eslot0 0).symm, by decide⟩
      · exact .inl he)
    (by
      intro j d j' d' hj hs
      have h2 := newedge j d hj
      have h2' : ¬ ∃ i c, pedge (pat23.old i) c = pedge (pat23.new j') d' := by
        rw [sorted2_eq_iff] at hs
        rintro ⟨i, c, hic⟩
        rcases hs with hs | hs
        · exact hj ⟨i, c, hic.trans (map2_inj hr.injL hs)⟩
        · refine hj ⟨i, twin c, ?_⟩
          rw [pedge_twin, hic]
          apply map2_inj hr.injL
          have : ∀ x : Fin 5 × Fin 5, ∀ L : Fin 5 → VId, map2 L x.swap = (map2 L x).swap := fun _ _ => rfl
          rw [this, hs]
          rfl
      have h3 := newedge j' d' h2'
      simp only [Tet.undirEdge, h2, h3, eslot0])
    (by
      intro i c hic
      exact absurd (by revert i c; decide) hic)
  have hrest := hq.rest
  refine hr.meshSurgery pat23_ok hm ?_ _ (by rw [hrest]) ?_ ?_ ⟨ewf, hq.wf⟩ (by rw [hrest]) hq.tri
    k1 enew k2 k3
  · intro v hv j d hj
    exfalso
    have : ∀ j d, ∃ i b, pat23.old i b = pat23.new j d := by decide
    obtain ⟨i, b, hib⟩ := this j d
    exact hv ⟨i, b, by rw [hj, hib]⟩
  · intro q hq
    simp only [List.mem_cons, List.not_mem_nil, or_false] at hq
    rcases hq with rfl | rfl | rfl | rfl | rfl
    · exact ⟨0, 3, rfl, rfl⟩
    · exact ⟨1, 3, rfl, rfl⟩
    · exact ⟨2, 3, rfl, rfl⟩
    · exact ⟨0, 1, rfl, rfl⟩
    · exact ⟨0, 0, rfl, rfl⟩
  · intro a
    rcases fin5 a with rfl | rfl | rfl | rfl | rfl
    · exact ⟨_, .head _⟩
    · exact ⟨_, .tail _ (.head _)⟩
    · exact ⟨_, .tail _ (.tail _ (.head _))⟩
    · exact ⟨_, .tail _ (.tail _ (.tail _ (.head _)))⟩
    · exact ⟨_, .tail _ (.tail _ (.tail _ (.tail _ (.head _))))⟩

end Tet
