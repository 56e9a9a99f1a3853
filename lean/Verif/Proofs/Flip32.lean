import Verif.Proofs.Flip23

/-! The 3-to-2 flip. -/

namespace Tet
open Spec

variable {P V T : Type}

theorem Tet.ext_fields {t t' : Tet T} (h1 : t.vertices = t'.vertices) (h2 : t.opp = t'.opp)
    (h3 : t.edges = t'.edges) (h4 : t.flags = t'.flags) (h5 : t.value = t'.value) : t = t' := by
  obtain ⟨a, b, c, d, e⟩ := t
  simp only at h1 h2 h3 h4 h5
  subst h1 h2 h3 h4 h5
  rfl

theorem edges6 (E : Fin 6 → EId) (x0 x1 x2 x3 x4 x5 : EId) :
    Function.update (Function.update (Function.update (Function.update (Function.update
      (Function.update E 0 x0) 1 x1) 2 x2) 3 x3) 4 x4) 5 x5 = ![x0, x1, x2, x3, x4, x5] := by
  funext i
  fin_cases i <;> rfl

/-- Setting a lock flag if `l`. -/
def Tet.orLocked (t : Tet T) (i : Fin 4) (l : Bool) : Tet T :=
  { t with flags := { t.flags with locked := Function.update t.flags.locked i (l || t.flags.locked i) } }

theorem Mesh.copyLock_step' (m : Mesh P V T) {adj : Walker} {id i a t}
    (ha : m.tets.get adj.tet = some a) (ht : m.tets.get id = some t) :
    ∃ m', m.copyLock adj id i = some m' ∧ TStep m m' ∧ ∀ j, m'.tets.get j =
      if j = id then some (t.orLocked i (a.flags.locked (face adj.edge))) else m.tets.get j := by
  obtain ⟨m', h1, h2, h3⟩ := m.copyLock_step (i := i) ha ht
  refine ⟨m', h1, h2, fun j => ?_⟩
  rw [h3]
  congr 2
  cases a.flags.locked (face adj.edge)
  · simp [Tet.orLocked]
  · simp [Tet.orLocked, Tet.setLocked]

theorem locks3 (f : TFlags) (x y z : Bool) (hl : f.locked = fun _ => false) :
    { f with
      locked := Function.update (Function.update (Function.update f.locked 0 (x || f.locked 0)) 1
        (y || Function.update f.locked 0 (x || f.locked 0) 1)) 2
        (z || Function.update (Function.update f.locked 0 (x || f.locked 0)) 1
        (y || Function.update f.locked 0 (x || f.locked 0) 1) 2) } =
    { f with locked := ![x, y, z, false] } := by
  congr 1
  funext i
  fin_cases i <;> simp [hl, Function.update]

/-- Lock flags of a new tet; the inner face is not locked. -/
def lock3 (x y z : Bool) : Fin 4 → Bool := ![x, y, z, false]

/-- The first new tet of the 3-to-2 flip. -/
def top32 (t : Tet T) (id1 : TId) (v0 v1 v2 v3 : VId) (adj0 adj1 adj2 : Walker) (a0 a1 a2 : Tet T) :
    Tet T where
  vertices := ![v0, v1, v2, v3]
  opp := ![adj2.nfe, adj1.pfe, adj0, ⟨id1, 3⟩]
  edges := ![a1.undirEdge (pfe adj1.edge), a0.undirEdge adj0.edge, a2.undirEdge adj2.edge,
    a0.undirEdge (pfe adj0.edge), a2.undirEdge (pfe adj2.edge), a1.undirEdge adj1.edge]
  flags := { t.flags with
    locked := lock3 (a2.flags.locked (face (nfe adj2.edge)))
      (a1.flags.locked (face (pfe adj1.edge))) (a0.flags.locked (face adj0.edge)) }
  value := t.value

/-- The second new tet of the 3-to-2 flip. -/
def bot32 (t tt : Tet T) (id0 : TId) (v0 v1 v2 v4 : VId) (adj0 adj1 adj2 : Walker) (a0 a1 a2 : Tet T) :
    Tet T where
  vertices := ![v1, v0, v2, v4]
  opp := ![adj1.nfe, adj2.pfe, adj0, ⟨id0, 3⟩]
  edges := ![a1.undirEdge (nfe adj1.edge), tt.edges 1, tt.edges 5, a2.undirEdge (nfe adj2.edge),
    a0.undirEdge (nfe adj0.edge), tt.edges 2]
  flags := { t.flags with
    locked := lock3 (a1.flags.locked (face (nfe adj1.edge)))
      (a2.flags.locked (face (pfe adj2.edge))) (a0.flags.locked (face adj0.edge)) }
  value := t.value

theorem Mesh.flip32Top_step (m : Mesh P V T) {id : TId} {t a0 a1 a2 : Tet T} (id1 : TId)
    (v0 v1 v2 v3 : VId) {adj0 adj1 adj2 : Walker}
    (ht : m.tets.get id = some t) (hl : t.flags.locked = fun _ => false)
    (ha0 : m.tets.get adj0.tet = some a0) (ha1 : m.tets.get adj1.tet = some a1)
    (ha2 : m.tets.get adj2.tet = some a2) (na0 : adj0.tet ≠ id) (na1 : adj1.tet ≠ id)
    (na2 : adj2.tet ≠ id) :
    ∃ m', m.flip32Top id id1 v0 v1 v2 v3 adj0 adj1 adj2 = some m' ∧ TStep m m' ∧
      ∀ j, m'.tets.get j = if j = id then some (top32 t id1 v0 v1 v2 v3 adj0 adj1 adj2 a0 a1 a2)
        else m.tets.get j := by
  obtain ⟨m1, e1, s1, g1⟩ := m.modTet_step (fun t => { t with vertices := ![v0, v1, v2, v3], opp := ![adj2.nfe, adj1.pfe, adj0, ⟨id1, 3⟩] }) ht
  have gi1 : m1.tets.get id = _ := (g1 id).trans (if_pos rfl)
  have qa01 : m1.tets.get adj0.tet = some a0 := (g1 _).trans ((if_neg na0).trans ha0)
  have qa11 : m1.tets.get adj1.tet = some a1 := (g1 _).trans ((if_neg na1).trans ha1)
  have qa21 : m1.tets.get adj2.tet = some a2 := (g1 _).trans ((if_neg na2).trans ha2)
  obtain ⟨m2, e2, s2, g2⟩ := m1.copyEdge_step (adj := adj1.pfe) (i := 0) qa11 gi1
  have gi2 : m2.tets.get id = _ := (g2 id).trans (if_pos rfl)
  have qa02 : m2.tets.get adj0.tet = some a0 := (g2 _).trans ((if_neg na0).trans qa01)
  have qa12 : m2.tets.get adj1.tet = some a1 := (g2 _).trans ((if_neg na1).trans qa11)
  have qa22 : m2.tets.get adj2.tet = some a2 := (g2 _).trans ((if_neg na2).trans qa21)
  obtain ⟨m3, e3, s3, g3⟩ := m2.copyEdge_step (adj := adj0) (i := 1) qa02 gi2
  have gi3 : m3.tets.get id = _ := (g3 id).trans (if_pos rfl)
  have qa03 : m3.tets.get adj0.tet = some a0 := (g3 _).trans ((if_neg na0).trans qa02)
  have qa13 : m3.tets.get adj1.tet = some a1 := (g3 _).trans ((if_neg na1).trans qa12)
  have qa23 : m3.tets.get adj2.tet = some a2 := (g3 _).trans ((if_neg na2).trans qa22)
  obtain ⟨m4, e4, s4, g4⟩ := m3.copyEdge_step (adj := adj2) (i := 2) qa23 gi3
  have gi4 : m4.tets.get id = _ := (g4 id).trans (if_pos rfl)
  have qa04 : m4.tets.get adj0.tet = some a0 := (g4 _).trans ((if_neg na0).trans qa03)
  have qa14 : m4.tets.get adj1.tet = some a1 := (g4 _).trans ((if_neg na1).trans qa13)
  have qa24 : m4.tets.get adj2.tet = some a2 := (g4 _).trans ((if_neg na2).trans qa23)
  obtain ⟨m5, e5, s5, g5⟩ := m4.copyEdge_step (adj := adj0.pfe) (i := 3) qa04 gi4
  have gi5 : m5.tets.get id = _ := (g5 id).trans (if_pos rfl)
  have qa05 : m5.tets.get adj0.tet = some a0 := (g5 _).trans ((if_neg na0).trans qa04)
  have qa15 : m5.tets.get adj1.tet = some a1 := (g5 _).trans ((if_neg na1).trans qa14)
  have qa25 : m5.tets.get adj2.tet = some a2 := (g5 _).trans ((if_neg na2).trans qa24)
  obtain ⟨m6, e6, s6, g6⟩ := m5.copyEdge_step (adj := adj2.pfe) (i := 4) qa25 gi5
  have gi6 : m6.tets.get id = _ := (g6 id).trans (if_pos rfl)
  have qa06 : m6.tets.get adj0.tet = some a0 := (g6 _).trans ((if_neg na0).trans qa05)
  have qa16 : m6.tets.get adj1.tet = some a1 := (g6 _).trans ((if_neg na1).trans qa15)
  have qa26 : m6.tets.get adj2.tet = some a2 := (g6 _).trans ((if_neg na2).trans qa25)
  obtain ⟨m7, e7, s7, g7⟩ := m6.copyEdge_step (adj := adj1) (i := 5) qa16 gi6
  have gi7 : m7.tets.get id = _ := (g7 id).trans (if_pos rfl)
  have qa07 : m7.tets.get adj0.tet = some a0 := (g7 _).trans ((if_neg na0).trans qa06)
  have qa17 : m7.tets.get adj1.tet = some a1 := (g7 _).trans ((if_neg na1).trans qa16)
  have qa27 : m7.tets.get adj2.tet = some a2 := (g7 _).trans ((if_neg na2).trans qa26)
  obtain ⟨m8, e8, s8, g8⟩ := m7.copyLock_step' (adj := adj2.nfe) (i := 0) qa27 gi7
  have gi8 : m8.tets.get id = _ := (g8 id).trans (if_pos rfl)
  have qa08 : m8.tets.get adj0.tet = some a0 := (g8 _).trans ((if_neg na0).trans qa07)
  have qa18 : m8.tets.get adj1.tet = some a1 := (g8 _).trans ((if_neg na1).trans qa17)
  have qa28 : m8.tets.get adj2.tet = some a2 := (g8 _).trans ((if_neg na2).trans qa27)
  obtain ⟨m9, e9, s9, g9⟩ := m8.copyLock_step' (adj := adj1.pfe) (i := 1) qa18 gi8
  have gi9 : m9.tets.get id = _ := (g9 id).trans (if_pos rfl)
  have qa09 : m9.tets.get adj0.tet = some a0 := (g9 _).trans ((if_neg na0).trans qa08)
  have qa19 : m9.tets.get adj1.tet = some a1 := (g9 _).trans ((if_neg na1).trans qa18)
  have qa29 : m9.tets.get adj2.tet = some a2 := (g9 _).trans ((if_neg na2).trans qa28)
  obtain ⟨m10, e10, s10, g10⟩ := m9.copyLock_step' (adj := adj0) (i := 2) qa09 gi9
  have gi10 : m10.tets.get id = _ := (g10 id).trans (if_pos rfl)
  have qa010 : m10.tets.get adj0.tet = some a0 := (g10 _).trans ((if_neg na0).trans qa09)
  have qa110 : m10.tets.get adj1.tet = some a1 := (g10 _).trans ((if_neg na1).trans qa19)
  have qa210 : m10.tets.get adj2.tet = some a2 := (g10 _).trans ((if_neg na2).trans qa29)
  refine ⟨m10, by simp only [Mesh.flip32Top, Option.bind_eq_bind, e1, e2, e3, e4, e5, e6, e7, e8, e9, e10, Option.bind_some], (((((((((s1.trans s2).trans s3).trans s4).trans s5).trans s6).trans s7).trans s8).trans s9).trans s10), ?_⟩
  intro j
  by_cases hj : j = id
  · subst hj
    rw [gi10, if_pos rfl]
    exact congrArg some (Tet.ext_fields rfl rfl (edges6 _ _ _ _ _ _ _) (locks3 t.flags _ _ _ hl) rfl)
  · rw [g10, g9, g8, g7, g6, g5, g4, g3, g2, g1]
    simp only [hj, if_false]

theorem Mesh.flip32Bottom_step (m : Mesh P V T) {id0 id : TId} {t tt a0 a1 a2 : Tet T}
    (v0 v1 v2 v4 : VId) {adj0 adj1 adj2 : Walker}
    (ht : m.tets.get id = some t) (hl : t.flags.locked = fun _ => false)
    (htt : m.tets.get id0 = some tt) (ntt : id0 ≠ id)
    (ha0 : m.tets.get adj0.tet = some a0) (ha1 : m.tets.get adj1.tet = some a1)
    (ha2 : m.tets.get adj2.tet = some a2) (na0 : adj0.tet ≠ id) (na1 : adj1.tet ≠ id)
    (na2 : adj2.tet ≠ id) :
    ∃ m', m.flip32Bottom id0 id v0 v1 v2 v4 adj0 adj1 adj2 = some m' ∧ TStep m m' ∧
      ∀ j, m'.tets.get j = if j = id then
        some (bot32 t tt id0 v0 v1 v2 v4 adj0 adj1 adj2 a0 a1 a2) else m.tets.get j := by
  obtain ⟨m1, e1, s1, g1⟩ := m.modTet_step (fun t => { t with vertices := ![v1, v0, v2, v4], opp := ![adj1.nfe, adj2.pfe, adj0, ⟨id0, 3⟩] }) ht
  have gi1 : m1.tets.get id = _ := (g1 id).trans (if_pos rfl)
  have qa01 : m1.tets.get adj0.tet = some a0 := (g1 _).trans ((if_neg na0).trans ha0)
  have qa11 : m1.tets.get adj1.tet = some a1 := (g1 _).trans ((if_neg na1).trans ha1)
  have qa21 : m1.tets.get adj2.tet = some a2 := (g1 _).trans ((if_neg na2).trans ha2)
  have qtt1 : m1.tets.get id0 = some tt := (g1 _).trans ((if_neg ntt).trans htt)
  obtain ⟨m2, e2, s2, g2⟩ := m1.copyEdge_step (adj := adj1.nfe) (i := 0) qa11 gi1
  have gi2 : m2.tets.get id = _ := (g2 id).trans (if_pos rfl)
  have qa02 : m2.tets.get adj0.tet = some a0 := (g2 _).trans ((if_neg na0).trans qa01)
  have qa12 : m2.tets.get adj1.tet = some a1 := (g2 _).trans ((if_neg na1).trans qa11)
  have qa22 : m2.tets.get adj2.tet = some a2 := (g2 _).trans ((if_neg na2).trans qa21)
  have qtt2 : m2.tets.get id0 = some tt := (g2 _).trans ((if_neg ntt).trans qtt1)
  obtain ⟨m3, e3, s3, g3⟩ := m2.copyEdgeSlot_step (j := 1) (i := 1) qtt2 gi2
  have gi3 : m3.tets.get id = _ := (g3 id).trans (if_pos rfl)
  have qa03 : m3.tets.get adj0.tet = some a0 := (g3 _).trans ((if_neg na0).trans qa02)
  have qa13 : m3.tets.get adj1.tet = some a1 := (g3 _).trans ((if_neg na1).trans qa12)
  have qa23 : m3.tets.get adj2.tet = some a2 := (g3 _).trans ((if_neg na2).trans qa22)
  have qtt3 : m3.tets.get id0 = some tt := (g3 _).trans ((if_neg ntt).trans qtt2)
  obtain ⟨m4, e4, s4, g4⟩ := m3.copyEdgeSlot_step (j := 5) (i := 2) qtt3 gi3
  have gi4 : m4.tets.get id = _ := (g4 id).trans (if_pos rfl)
  have qa04 : m4.tets.get adj0.tet = some a0 := (g4 _).trans ((if_neg na0).trans qa03)
  have qa14 : m4.tets.get adj1.tet = some a1 := (g4 _).trans ((if_neg na1).trans qa13)
  have qa24 : m4.tets.get adj2.tet = some a2 := (g4 _).trans ((if_neg na2).trans qa23)
  have qtt4 : m4.tets.get id0 = some tt := (g4 _).trans ((if_neg ntt).trans qtt3)
  obtain ⟨m5, e5, s5, g5⟩ := m4.copyEdge_step (adj := adj2.nfe) (i := 3) qa24 gi4
  have gi5 : m5.tets.get id = _ := (g5 id).trans (if_pos rfl)
  have qa05 : m5.tets.get adj0.tet = some a0 := (g5 _).trans ((if_neg na0).trans qa04)
  have qa15 : m5.tets.get adj1.tet = some a1 := (g5 _).trans ((if_neg na1).trans qa14)
  have qa25 : m5.tets.get adj2.tet = some a2 := (g5 _).trans ((if_neg na2).trans qa24)
  have qtt5 : m5.tets.get id0 = some tt := (g5 _).trans ((if_neg ntt).trans qtt4)
  obtain ⟨m6, e6, s6, g6⟩ := m5.copyEdge_step (adj := adj0.nfe) (i := 4) qa05 gi5
  have gi6 : m6.tets.get id = _ := (g6 id).trans (if_pos rfl)
  have qa06 : m6.tets.get adj0.tet = some a0 := (g6 _).trans ((if_neg na0).trans qa05)
  have qa16 : m6.tets.get adj1.tet = some a1 := (g6 _).trans ((if_neg na1).trans qa15)
  have qa26 : m6.tets.get adj2.tet = some a2 := (g6 _).trans ((if_neg na2).trans qa25)
  have qtt6 : m6.tets.get id0 = some tt := (g6 _).trans ((if_neg ntt).trans qtt5)
  obtain ⟨m7, e7, s7, g7⟩ := m6.copyEdgeSlot_step (j := 2) (i := 5) qtt6 gi6
  have gi7 : m7.tets.get id = _ := (g7 id).trans (if_pos rfl)
  have qa07 : m7.tets.get adj0.tet = some a0 := (g7 _).trans ((if_neg na0).trans qa06)
  have qa17 : m7.tets.get adj1.tet = some a1 := (g7 _).trans ((if_neg na1).trans qa16)
  have qa27 : m7.tets.get adj2.tet = some a2 := (g7 _).trans ((if_neg na2).trans qa26)
  have qtt7 : m7.tets.get id0 = some tt := (g7 _).trans ((if_neg ntt).trans qtt6)
  obtain ⟨m8, e8, s8, g8⟩ := m7.copyLock_step' (adj := adj1.nfe) (i := 0) qa17 gi7
  have gi8 : m8.tets.get id = _ := (g8 id).trans (if_pos rfl)
  have qa08 : m8.tets.get adj0.tet = some a0 := (g8 _).trans ((if_neg na0).trans qa07)
  have qa18 : m8.tets.get adj1.tet = some a1 := (g8 _).trans ((if_neg na1).trans qa17)
  have qa28 : m8.tets.get adj2.tet = some a2 := (g8 _).trans ((if_neg na2).trans qa27)
  have qtt8 : m8.tets.get id0 = some tt := (g8 _).trans ((if_neg ntt).trans qtt7)
  obtain ⟨m9, e9, s9, g9⟩ := m8.copyLock_step' (adj := adj2.pfe) (i := 1) qa28 gi8
  have gi9 : m9.tets.get id = _ := (g9 id).trans (if_pos rfl)
  have qa09 : m9.tets.get adj0.tet = some a0 := (g9 _).trans ((if_neg na0).trans qa08)
  have qa19 : m9.tets.get adj1.tet = some a1 := (g9 _).trans ((if_neg na1).trans qa18)
  have qa29 : m9.tets.get adj2.tet = some a2 := (g9 _).trans ((if_neg na2).trans qa28)
  have qtt9 : m9.tets.get id0 = some tt := (g9 _).trans ((if_neg ntt).trans qtt8)
  obtain ⟨m10, e10, s10, g10⟩ := m9.copyLock_step' (adj := adj0) (i := 2) qa09 gi9
  have gi10 : m10.tets.get id = _ := (g10 id).trans (if_pos rfl)
  have qa010 : m10.tets.get adj0.tet = some a0 := (g10 _).trans ((if_neg na0).trans qa09)
  have qa110 : m10.tets.get adj1.tet = some a1 := (g10 _).trans ((if_neg na1).trans qa19)
  have qa210 : m10.tets.get adj2.tet = some a2 := (g10 _).trans ((if_neg na2).trans qa29)
  have qtt10 : m10.tets.get id0 = some tt := (g10 _).trans ((if_neg ntt).trans qtt9)
  refine ⟨m10, by simp only [Mesh.flip32Bottom, Option.bind_eq_bind, e1, e2, e3, e4, e5, e6, e7, e8, e9, e10, Option.bind_some], (((((((((s1.trans s2).trans s3).trans s4).trans s5).trans s6).trans s7).trans s8).trans s9).trans s10), ?_⟩
  intro j
  by_cases hj : j = id
  · subst hj
    rw [gi10, if_pos rfl]
    exact congrArg some (Tet.ext_fields rfl rfl (edges6 _ _ _ _ _ _ _) (locks3 t.flags _ _ _ hl) rfl)
  · rw [g10, g9, g8, g7, g6, g5, g4, g3, g2, g1]
    simp only [hj, if_false]

/-- What is assumed of a 3-to-2 flip at `w`: going round the edge passes exactly three tets. -/
structure Pre32 (m : Mesh P V T) (w o1 o2 : Walker) (t0 t1 t2 : Tet T) : Prop where
  h0 : m.tets.get w.tet = some t0
  e1 : t0.adj (twin w.edge) = o1
  h1 : m.tets.get o1.tet = some t1
  e2 : t1.adj (twin o1.edge) = o2
  h2 : m.tets.get o2.tet = some t2
  e3 : t2.adj (twin o2.edge) = w

/-- Redirections of the 3-to-2 flip. -/
def redir32 (w o1 o2 : Walker) : List (Walker × TId × Code) :=
  [(w.opp, w.tet, (w.perm P3210).edge), (o1.opp, w.tet, (o1.perm P2130).edge),
   (o2.opp, w.tet, (o2.perm P1320).edge), (w.perm P3210, o1.tet, (w.perm P2301).edge),
   (o1.perm P3210, o1.tet, (o1.perm P0231).edge), (o2.perm P3210, o1.tet, (o2.perm P3021).edge)]

/-- The first new tet. -/
def tetA32 (w o1 o2 : Walker) (t0 t1 t2 at0 at1 at2 : Tet T) : Tet T :=
  top32 t0 o1.tet (t0.fourth w.edge) (t0.third w.edge) (t1.fourth o1.edge) (t0.first w.edge)
    (t0.adj (opp w.edge)) (t1.adj (opp o1.edge)) (t2.adj (opp o2.edge)) at0 at1 at2

/-- The second new tet. -/
def tetB32 (w o1 o2 : Walker) (t0 t1 t2 at0 at1 at2 ab0 ab1 ab2 : Tet T) : Tet T :=
  bot32 t1 (tetA32 w o1 o2 t0 t1 t2 at0 at1 at2) w.tet (t0.fourth w.edge) (t0.third w.edge)
    (t1.fourth o1.edge) (t0.second w.edge) (t0.adj (toPerm w.edge P3210))
    (t1.adj (toPerm o1.edge P3210)) (t2.adj (toPerm o2.edge P3210)) ab0 ab1 ab2

/-- The result of a 3-to-2 flip. -/
structure Post32 (m m' : Mesh P V T) (w o1 o2 : Walker) (t0 t1 t2 at0 at1 at2 ab0 ab1 ab2 : Tet T) :
    Prop where
  nt0 : m.tets.get (t0.adj (opp w.edge)).tet = some at0
  nt1 : m.tets.get (t1.adj (opp o1.edge)).tet = some at1
  nt2 : m.tets.get (t2.adj (opp o2.edge)).tet = some at2
  nb0 : m.tets.get (t0.adj (toPerm w.edge P3210)).tet = some ab0
  nb1 : m.tets.get (t1.adj (toPerm o1.edge P3210)).tet = some ab1
  nb2 : m.tets.get (t2.adj (toPerm o2.edge P3210)).tet = some ab2
  get : ∀ j, m'.tets.get j =
    if j = w.tet then some (tetA32 w o1 o2 t0 t1 t2 at0 at1 at2)
    else if j = o1.tet then some (tetB32 w o1 o2 t0 t1 t2 at0 at1 at2 ab0 ab1 ab2)
    else if j = o2.tet then none
    else (m.tets.get j).map (patch [w.tet, o1.tet, o2.tet] (target (redir32 w o1 o2)))
  rest : m' = { m with
    vertices := setTets m.vertices [(t0.fourth w.edge, ⟨w.tet, 3⟩), (t0.third w.edge, ⟨w.tet, 7⟩),
      (t1.fourth o1.edge, ⟨w.tet, 11⟩), (t0.first w.edge, ⟨w.tet, 0⟩), (t0.second w.edge, ⟨o1.tet, 0⟩)]
    edges := m'.edges, tets := m'.tets, triMap := m'.triMap }
  edges : ∃ old, m.edges.remove (t2.undirEdge o2.edge) = some (m'.edges, old)
  wf : m'.tets.WF
  size : m'.tets.size + 1 = m.tets.size
  tri : TriUpd m m' [w.tet, o1.tet, o2.tet] [w.tet, o1.tet]

theorem Pre32.facts {m : Mesh P V T} (hm : ConsistentT m) {w o1 o2 : Walker} {t0 t1 t2 : Tet T}
    (hp : Pre32 m w o1 o2 t0 t1 t2) :
    o1.tet ≠ w.tet ∧ o2.tet ≠ o1.tet ∧ o2.tet ≠ w.tet ∧
    (t1.first o1.edge = t0.first w.edge ∧ t1.second o1.edge = t0.second w.edge ∧
      t1.third o1.edge = t0.fourth w.edge) ∧
    (t2.first o2.edge = t0.first w.edge ∧ t2.second o2.edge = t0.second w.edge ∧
      t2.third o2.edge = t1.fourth o1.edge ∧ t2.fourth o2.edge = t0.third w.edge) ∧
    (∀ c, face c ≠ 2 → face c ≠ 3 → (t0.adj (toPerm w.edge c)).tet ∉ [w.tet, o1.tet, o2.tet]) ∧
    (∀ c, face c ≠ 2 → face c ≠ 3 → (t1.adj (toPerm o1.edge c)).tet ∉ [w.tet, o1.tet, o2.tet]) ∧
    (∀ c, face c ≠ 2 → face c ≠ 3 → (t2.adj (toPerm o2.edge c)).tet ∉ [w.tet, o1.tet, o2.tet]) ∧
    t0.adj w.edge = ⟨o2.tet, twin o2.edge⟩ ∧ t1.adj o1.edge = ⟨w.tet, twin w.edge⟩ ∧
    t2.adj o2.edge = ⟨o1.tet, twin o1.edge⟩ := by
  obtain ⟨h0, e1, h1, e2, h2, e3⟩ := hp
  have tw : ∀ e, firstIdx (twin e) = secondIdx e ∧ secondIdx (twin e) = firstIdx e ∧
    thirdIdx (twin e) = face e ∧ face (twin e) = thirdIdx e := by decide
  have twt : ∀ (t : Tet T) e, t.first (twin e) = t.second e ∧ t.second (twin e) = t.first e ∧
      t.third (twin e) = t.fourth e ∧ t.fourth (twin e) = t.third e := by
    intro t e
    simp only [Tet.first, Tet.second, Tet.third, Tet.fourth, tw]
    trivial
  obtain ⟨b1, a1, a2, a3⟩ := tri_facts hm.adj (e := twin w.edge) h0 (by rw [e1]; exact h1)
  obtain ⟨b2, a4, a5, a6⟩ := tri_facts hm.adj (e := twin o1.edge) h1 (by rw [e2]; exact h2)
  obtain ⟨b3, a7, a8, a9⟩ := tri_facts hm.adj (e := twin o2.edge) h2 (by rw [e3]; exact h0)
  rw [e1] at b1 a1 a2 a3
  rw [e2] at b2 a4 a5 a6
  rw [e3] at b3 a7 a8 a9
  simp only [twt] at a1 a2 a3 a4 a5 a6 a7 a8 a9
  have n1 : o1.tet ≠ w.tet := e1 ▸ hm.adj.no_self hm.distinct h0 _
  have n2 : o2.tet ≠ o1.tet := e2 ▸ hm.adj.no_self hm.distinct h1 _
  have n3 : o2.tet ≠ w.tet := (e3 ▸ hm.adj.no_self hm.distinct h2 (twin o2.edge) : w.tet ≠ o2.tet).symm
  have d0 := Tet.distinct_vals (hm.distinct _ _ h0) w.edge
  have d1 := Tet.distinct_vals (hm.distinct _ _ h1) o1.edge
  have d2 := Tet.distinct_vals (hm.distinct _ _ h2) o2.edge
  have fne : ∀ e c, face c ≠ 2 → face c ≠ 3 → face (toPerm e c) ≠ face e ∧
    face (toPerm e c) ≠ face (twin e) := by decide
  refine ⟨n1, n2, n3, ⟨a1, a2, a3⟩, ⟨by omega, by omega, a6, by omega⟩, ?_, ?_, ?_, b3, b1, b2⟩
  · intro c hc2 hc3
    simp only [List.mem_cons, List.not_mem_nil, or_false, not_or]
    refine ⟨hm.adj.no_self hm.distinct h0 _, fun h => ?_, fun h => ?_⟩
    · have := hm.adj.two_faces hm.distinct h0 (by rw [e1]; exact h1) (fne _ c hc2 hc3).2 (by rw [h, e1])
      rw [e1] at this
      simp only [twt] at this
      omega
    · have := hm.adj.two_faces hm.distinct h0 (by rw [b3]; exact h2) (fne _ c hc2 hc3).1 (by rw [h, b3])
      rw [b3] at this
      simp only [twt] at this
      omega
  · intro c hc2 hc3
    simp only [List.mem_cons, List.not_mem_nil, or_false, not_or]
    refine ⟨fun h => ?_, hm.adj.no_self hm.distinct h1 _, fun h => ?_⟩
    · have := hm.adj.two_faces hm.distinct h1 (by rw [b1]; exact h0) (fne _ c hc2 hc3).1 (by rw [h, b1])
      rw [b1] at this
      simp only [twt] at this
      omega
    · have := hm.adj.two_faces hm.distinct h1 (by rw [e2]; exact h2) (fne _ c hc2 hc3).2 (by rw [h, e2])
      rw [e2] at this
      simp only [twt] at this
      omega
  · intro c hc2 hc3
    simp only [List.mem_cons, List.not_mem_nil, or_false, not_or]
    refine ⟨fun h => ?_, fun h => ?_, hm.adj.no_self hm.distinct h2 _⟩
    · have := hm.adj.two_faces hm.distinct h2 (by rw [e3]; exact h0) (fne _ c hc2 hc3).2 (by rw [h, e3])
      rw [e3] at this
      simp only [twt] at this
      omega
    · have := hm.adj.two_faces hm.distinct h2 (by rw [b2]; exact h1) (fne _ c hc2 hc3).1 (by rw [h, b2])
      rw [b2] at this
      simp only [twt] at this
      omega

theorem flip32_exec {m : Mesh P V T} (hm : ConsistentT m) {w o1 o2 : Walker} {t0 t1 t2 : Tet T}
    (hp : Pre32 m w o1 o2 t0 t1 t2) :
    ∃ m' at0 at1 at2 ab0 ab1 ab2,
      m.flip32Unchecked w = some (m', [⟨w.tet, 10⟩, ⟨o1.tet, 10⟩]) ∧
      Post32 m m' w o1 o2 t0 t1 t2 at0 at1 at2 ab0 ab1 ab2 := by
  obtain ⟨n10, n21, n20, -, -, out0, out1, out2, back0, back1, back2⟩ := hp.facts hm
  obtain ⟨h0, e1, h1, e2, h2, e3⟩ := hp
  have fv : face P2301 ≠ 2 ∧ face P2301 ≠ 3 ∧ face P3210 ≠ 2 ∧ face P3210 ≠ 3 := by decide
  have live : ∀ {k t} (e), m.tets.get k = some t → ∃ u, m.tets.get (t.adj e).tet = some u := by
    intro k t e ht
    obtain ⟨u, hu, -⟩ := hm.adj k t e ht
    exact ⟨u, hu⟩
  have p0 : (t0.adj (opp w.edge)).tet ∉ [w.tet, o1.tet, o2.tet] := by
    rw [opp_eq]; exact out0 _ fv.1 fv.2.1
  have p1 : (t1.adj (opp o1.edge)).tet ∉ [w.tet, o1.tet, o2.tet] := by
    rw [opp_eq]; exact out1 _ fv.1 fv.2.1
  have p2 : (t2.adj (opp o2.edge)).tet ∉ [w.tet, o1.tet, o2.tet] := by
    rw [opp_eq]; exact out2 _ fv.1 fv.2.1
  have q0 := out0 P3210 fv.2.2.1 fv.2.2.2
  have q1 := out1 P3210 fv.2.2.1 fv.2.2.2
  have q2 := out2 P3210 fv.2.2.1 fv.2.2.2
  obtain ⟨at0, r0⟩ := live (opp w.edge) h0
  obtain ⟨at1, r1⟩ := live (opp o1.edge) h1
  obtain ⟨at2, r2⟩ := live (opp o2.edge) h2
  obtain ⟨ab0, s0⟩ := live (toPerm w.edge P3210) h0
  obtain ⟨ab1, s1⟩ := live (toPerm o1.edge P3210) h1
  obtain ⟨ab2, s2⟩ := live (toPerm o2.edge P3210) h2
  -- clear the lock flags
  obtain ⟨mA1, eA1, sA1, gA1⟩ := m.modTet_step (·.clearLocked [0, 1, 2, 3]) h0
  obtain ⟨mA2, eA2, sA2, gA2⟩ := mA1.modTet_step (k := o1.tet) (t := t1) (·.clearLocked [0, 1, 2, 3])
    (by rw [gA1, if_neg n10, h1])
  have G0 : mA2.tets.get w.tet = some (t0.clearLocked [0, 1, 2, 3]) := by
    rw [gA2, if_neg n10.symm, gA1, if_pos rfl]
  have G1 : mA2.tets.get o1.tet = some (t1.clearLocked [0, 1, 2, 3]) := by
    rw [gA2, if_pos rfl]
  have G2 : mA2.tets.get o2.tet = some t2 := by
    rw [gA2, if_neg n21, gA1, if_neg n20, h2]
  have GG : ∀ j, j ∉ [w.tet, o1.tet, o2.tet] → mA2.tets.get j = m.tets.get j := by
    intro j hj
    simp only [List.mem_cons, List.not_mem_nil, or_false, not_or] at hj
    rw [gA2, if_neg hj.2.1, gA1, if_neg hj.1]
  have sA := sA1.trans sA2
  obtain ⟨tm, eTR, hTR⟩ := Mesh.triRemoveTets_spec [w.tet, o1.tet, o2.tet] mA2 (by
    intro k hk
    simp only [List.mem_cons, List.not_mem_nil, or_false] at hk
    rcases hk with rfl | rfl | rfl
    · exact ⟨_, G0⟩
    · exact ⟨_, G1⟩
    · exact ⟨_, G2⟩)
  -- redirect the neighbours
  have I0 : RInv m { mA2 with triMap := tm } [w.tet, o1.tet, o2.tet] mA2.tets.get [] := by
    refine ⟨fun _ _ => rfl, fun j hj => ?_⟩
    show mA2.tets.get j = _
    rw [GG j hj]
    show _ = (m.tets.get j).map id
    simp
  have mem0 : w.tet ∈ [w.tet, o1.tet, o2.tet] := by simp
  have mem1 : o1.tet ∈ [w.tet, o1.tet, o2.tet] := by simp
  have mem2 : o2.tet ∈ [w.tet, o1.tet, o2.tet] := by simp
  obtain ⟨m1, f1, u1, I1⟩ := I0.redirect r0 p0 w.tet (w.perm P3210).edge
  have a1 : ({ mA2 with triMap := tm } : Mesh P V T).toAdj w.opp = some (t0.adj (opp w.edge)) :=
    by have h := I0.toAdj (x := w.opp) mem0 G0; exact h
  obtain ⟨m2, f2, u2, I2⟩ := I1.redirect r1 p1 w.tet (o1.perm P2130).edge
  have a2 : m1.toAdj o1.opp = some (t1.adj (opp o1.edge)) := by
    have h := I1.toAdj (x := o1.opp) mem1 G1; exact h
  obtain ⟨m3, f3, u3, I3⟩ := I2.redirect r2 p2 w.tet (o2.perm P1320).edge
  have a3 : m2.toAdj o2.opp = some (t2.adj (opp o2.edge)) := by
    have h := I2.toAdj (x := o2.opp) mem2 G2; exact h
  obtain ⟨m4, f4, u4, I4⟩ := I3.redirect s0 q0 o1.tet (w.perm P2301).edge
  have a4 : m3.toAdj (w.perm P3210) = some (t0.adj (toPerm w.edge P3210)) :=
    by have h := I3.toAdj (x := w.perm P3210) mem0 G0; exact h
  obtain ⟨m5, f5, u5, I5⟩ := I4.redirect s1 q1 o1.tet (o1.perm P0231).edge
  have a5 : m4.toAdj (o1.perm P3210) = some (t1.adj (toPerm o1.edge P3210)) :=
    by have h := I4.toAdj (x := o1.perm P3210) mem1 G1; exact h
  obtain ⟨m6, f6, u6, I6⟩ := I5.redirect s2 q2 o1.tet (o2.perm P3021).edge
  have a6 : m5.toAdj (o2.perm P3210) = some (t2.adj (toPerm o2.edge P3210)) :=
    by have h := I5.toAdj (x := o2.perm P3210) mem2 G2; exact h
  have sB := ((((u1.trans u2).trans u3).trans u4).trans u5).trans u6
  have faces : ∀ e x, face x ≠ face e → face x ≠ face (twin e) →
    face (opp e) = face x ∨ face (toPerm e P3210) = face x := by decide
  have dist : ∀ e, face (opp e) ≠ face (toPerm e P3210) := by decide
  have Ln : ∀ j t, j ∉ [w.tet, o1.tet, o2.tet] → m.tets.get j = some t →
      patches ([] ++ [(t0.adj (opp w.edge), w.tet, (w.perm P3210).edge)] ++
        [(t1.adj (opp o1.edge), w.tet, (o1.perm P2130).edge)] ++
        [(t2.adj (opp o2.edge), w.tet, (o2.perm P1320).edge)] ++
        [(t0.adj (toPerm w.edge P3210), o1.tet, (w.perm P2301).edge)] ++
        [(t1.adj (toPerm o1.edge P3210), o1.tet, (o1.perm P0231).edge)] ++
        [(t2.adj (toPerm o2.edge P3210), o1.tet, (o2.perm P3021).edge)]) j t =
      patch [w.tet, o1.tet, o2.tet] (target (redir32 w o1 o2)) t := by
    intro j t hj ht
    have := patches_eq_patch hm.adj [w.tet, o1.tet, o2.tet] (redir32 w o1 o2)
      (fun x => if x.tet = w.tet then t0.adj x.edge else if x.tet = o1.tet then t1.adj x.edge
        else t2.adj x.edge) ?_ ?_ ?_ hj ht
    · rw [← this]
      simp [redir32, Walker.perm, Walker.opp, n10, n20, n21]
    · intro r hr
      simp only [redir32, List.mem_cons, List.not_mem_nil, or_false] at hr
      rcases hr with rfl | rfl | rfl | rfl | rfl | rfl <;>
        simp only [Walker.perm, Walker.opp, if_true, n10, n20, n21, if_false]
      · exact ⟨mem0, t0, h0, rfl, p0⟩
      · exact ⟨mem1, t1, h1, rfl, p1⟩
      · exact ⟨mem2, t2, h2, rfl, p2⟩
      · exact ⟨mem0, t0, h0, rfl, q0⟩
      · exact ⟨mem1, t1, h1, rfl, q1⟩
      · exact ⟨mem2, t2, h2, rfl, q2⟩
    · intro x t hx ht hout
      simp only [List.mem_cons, List.not_mem_nil, or_false, not_or] at hx hout
      have two : ∀ {k : TId} {t : Tet T} {o o' : Walker} {e : Code}, t.adj e = o → t.adj (twin e) = o' →
          (t.adj x.edge).tet ≠ o.tet → (t.adj x.edge).tet ≠ o'.tet →
          face x.edge ≠ face e ∧ face x.edge ≠ face (twin e) := by
        intro k t o o' e he he' hh hh'
        constructor
        · intro hf
          apply hh
          rw [Tet.adj_tet, hf, ← Tet.adj_tet, he]
        · intro hf
          apply hh'
          rw [Tet.adj_tet, hf, ← Tet.adj_tet, he']
      rcases hx with hx | hx | hx
      · rw [hx, h0] at ht
        cases ht
        obtain ⟨k1, k2⟩ := two (k := w.tet) back0 e1 hout.2.2 hout.2.1
        rcases faces _ _ k1 k2 with h | h
        · exact ⟨_, .head _, hx.symm, h⟩
        · exact ⟨_, .tail _ (.tail _ (.tail _ (.head _))), hx.symm, h⟩
      · rw [hx, h1] at ht
        cases ht
        obtain ⟨k1, k2⟩ := two (k := w.tet) back1 e2 hout.1 hout.2.2
        rcases faces _ _ k1 k2 with h | h
        · exact ⟨_, .tail _ (.head _), hx.symm, h⟩
        · exact ⟨_, .tail _ (.tail _ (.tail _ (.tail _ (.head _)))), hx.symm, h⟩
      · rw [hx, h2] at ht
        cases ht
        obtain ⟨k1, k2⟩ := two (k := w.tet) back2 e3 hout.2.1 hout.1
        rcases faces _ _ k1 k2 with h | h
        · exact ⟨_, .tail _ (.tail _ (.head _)), hx.symm, h⟩
        · exact ⟨_, .tail _ (.tail _ (.tail _ (.tail _ (.tail _ (.head _))))), hx.symm, h⟩
    · simp [redir32, Walker.perm, Walker.opp, n10, n20, n21, n10.symm, n20.symm, n21.symm, dist]
  have J6 : ∀ j, j ∉ [w.tet, o1.tet, o2.tet] → m6.tets.get j =
      (m.tets.get j).map (patch [w.tet, o1.tet, o2.tet] (target (redir32 w o1 o2))) := by
    intro j hj
    rw [I6.2 j hj]
    cases hg : m.tets.get j with
    | none => rfl
    | some t => exact congrArg some (Ln j t hj hg)
  have K0 : m6.tets.get w.tet = _ := (I6.1 _ mem0).trans G0
  have K1 : m6.tets.get o1.tet = _ := (I6.1 _ mem1).trans G1
  have K2 : m6.tets.get o2.tet = _ := (I6.1 _ mem2).trans G2
  have e4 : m6.tet4 w = some (t0.first w.edge, t0.second w.edge, t0.third w.edge, t0.fourth w.edge) := by
    simp only [Mesh.tet4, K0, Option.map_some]; rfl
  have e5 : m6.fourth o1 = some (t1.fourth o1.edge) := by
    simp only [Mesh.fourth, K1, Option.map_some]; rfl
  have hrest : m6 = { m with tets := m6.tets, triMap := tm } := by
    have h := sB.eq
    have h' := sA.eq
    rw [h, h']
  generalize hm7 : ({ m6 with
    vertices := setTets m6.vertices [(t0.fourth w.edge, ⟨w.tet, 3⟩), (t0.third w.edge, ⟨w.tet, 7⟩),
      (t1.fourth o1.edge, ⟨w.tet, 11⟩), (t0.first w.edge, ⟨w.tet, 0⟩), (t0.second w.edge, ⟨o1.tet, 0⟩)]
    } : Mesh P V T) = m7
  have t7 : m7.tets = m6.tets := by rw [← hm7]
  have pget : ∀ {a : TId} {u}, a ∉ [w.tet, o1.tet, o2.tet] → m.tets.get a = some u → m6.tets.get a =
      some (patch [w.tet, o1.tet, o2.tet] (target (redir32 w o1 o2)) u) := by
    intro a u ha hu
    rw [J6 _ ha, hu]; rfl
  have ni0 : ∀ {a : TId}, a ∉ [w.tet, o1.tet, o2.tet] → a ≠ w.tet := fun h e => h (e ▸ mem0)
  have ni1 : ∀ {a : TId}, a ∉ [w.tet, o1.tet, o2.tet] → a ≠ o1.tet := fun h e => h (e ▸ mem1)
  -- the new tets
  obtain ⟨m8, x8, s8, g8⟩ := m7.flip32Top_step o1.tet (t0.fourth w.edge) (t0.third w.edge)
    (t1.fourth o1.edge) (t0.first w.edge) (t7 ▸ K0) (Tet.clear_all _)
    (t7 ▸ pget p0 r0) (t7 ▸ pget p1 r1) (t7 ▸ pget p2 r2) (ni0 p0) (ni0 p1) (ni0 p2)
  obtain ⟨m9, x9, s9, g9⟩ := m8.flip32Bottom_step (id := o1.tet) (t0.fourth w.edge) (t0.third w.edge)
    (t1.fourth o1.edge) (t0.second w.edge) (by rw [g8, if_neg n10, t7, K1]) (Tet.clear_all _)
    ((g8 w.tet).trans (if_pos rfl)) n10.symm
    (by rw [g8, if_neg (ni0 q0), t7, pget q0 s0]) (by rw [g8, if_neg (ni0 q1), t7, pget q1 s1])
    (by rw [g8, if_neg (ni0 q2), t7, pget q2 s2]) (ni1 q0) (ni1 q1) (ni1 q2)
  have sD := s8.trans s9
  have L0 : m9.tets.get w.tet = _ := (g9 _).trans ((if_neg n10.symm).trans ((g8 _).trans (if_pos rfl)))
  have L1 : m9.tets.get o1.tet = _ := (g9 _).trans (if_pos rfl)
  have L2 : m9.tets.get o2.tet = some t2 := (g9 _).trans ((if_neg n21).trans ((g8 _).trans
    ((if_neg n20).trans (t7 ▸ K2))))
  have e6 : m9.undirEdge o2 = some (t2.undirEdge o2.edge) := Mesh.undirEdge_eq L2
  have hrest9 : m9 = { m with
      vertices := setTets m.vertices [(t0.fourth w.edge, ⟨w.tet, 3⟩), (t0.third w.edge, ⟨w.tet, 7⟩),
      (t1.fourth o1.edge, ⟨w.tet, 11⟩), (t0.first w.edge, ⟨w.tet, 0⟩), (t0.second w.edge, ⟨o1.tet, 0⟩)]
      tets := m9.tets, triMap := tm } := by
    rw [sD.eq, ← hm7, hrest]
  have hed : m9.edges = m.edges := by rw [hrest9]
  obtain ⟨es, eE, -, -, -⟩ := IdMap.remove_spec (t2.undirEdge o2.edge) hm.stored.2.1
  have wf9 : m9.tets.WF := sD.wf (t7 ▸ sB.wf (sA.wf hm.stored.2.2))
  obtain ⟨ts, eT, wfT, gT, szT, -⟩ := IdMap.remove_spec o2.tet wf9
  have e7 : m9.removeEdge (t2.undirEdge o2.edge) = some { m9 with edges := es } := by
    simp [Mesh.removeEdge, hed, eE]
  have e8 : ({ m9 with edges := es } : Mesh P V T).removeTet o2.tet =
      some { m9 with edges := es, tets := ts } := by
    simp [Mesh.removeTet, eT]
  have M0 : ts.get w.tet = _ := (gT _).trans ((if_neg n20.symm).trans L0)
  have M1 : ts.get o1.tet = _ := (gT _).trans ((if_neg n21.symm).trans L1)
  obtain ⟨tm', eTI, hTI⟩ := Mesh.triInsertTets_spec [w.tet, o1.tet]
    ({ m9 with edges := es, tets := ts } : Mesh P V T) (by
    intro k hk
    simp only [List.mem_cons, List.not_mem_nil, or_false] at hk
    rcases hk with rfl | rfl
    · exact ⟨_, M0⟩
    · exact ⟨_, M1⟩)
  refine ⟨{ m9 with edges := es, tets := ts, triMap := tm' }, at0, at1, at2, ab0, ab1, ab2, ?_, ?_⟩
  · have E1 : m.toAdj w.twin = some o1 := by
      rw [Mesh.toAdj_eq (w := w.twin) h0]; exact congrArg some e1
    have E2 : m.toAdj o1.twin = some o2 := by
      rw [Mesh.toAdj_eq (w := o1.twin) h1]; exact congrArg some e2
    unfold Mesh.flip32Unchecked
    refine (bind_step E1 _).trans ?_
    refine (bind_step E2 _).trans ?_
    refine (bind_step eA1 _).trans ?_
    refine (bind_step eA2 _).trans ?_
    refine (bind_step eTR _).trans ?_
    refine (bind_step a1 _).trans ?_
    refine (bind_step f1 _).trans ?_
    refine (bind_step a2 _).trans ?_
    refine (bind_step f2 _).trans ?_
    refine (bind_step a3 _).trans ?_
    refine (bind_step f3 _).trans ?_
    refine (bind_step a4 _).trans ?_
    refine (bind_step f4 _).trans ?_
    refine (bind_step a5 _).trans ?_
    refine (bind_step f5 _).trans ?_
    refine (bind_step a6 _).trans ?_
    refine (bind_step f6 _).trans ?_
    refine (bind_step e4 _).trans ?_
    refine (bind_step e5 _).trans ?_
    refine (bind_step (a := m8) ?_ _).trans ?_
    · rw [← x8, ← hm7]; rfl
    refine (bind_step x9 _).trans ?_
    refine (bind_step e6 _).trans ?_
    refine (bind_step e7 _).trans ?_
    refine (bind_step e8 _).trans ?_
    exact bind_step eTI _
  · refine ⟨r0, r1, r2, s0, s1, s2, ?_, ?_, ?_, wfT, ?_, ?_⟩
    · intro j
      show ts.get j = _
      split_ifs with c0 c1 c2
      · subst c0; rw [M0]; rfl
      · subst c1; rw [M1]; rfl
      · subst c2; rw [gT, if_pos rfl]
      · rw [gT, if_neg c2, g9, if_neg c1, g8, if_neg c0, t7]
        exact J6 j (by simp [c0, c1, c2])
    · show ({ m9 with edges := es, tets := ts, triMap := tm' } : Mesh P V T) = _
      rw [hrest9]
    · exact ⟨_, eE⟩
    · show ts.size + 1 = _
      rw [L2] at szT
      simp only [Option.isSome_some, if_true] at szT
      rw [szT, sD.size, t7, sB.size]
      exact sA.size
    · refine TriUpd.of (ma := mA2) (mb := { m9 with edges := es, tets := ts }) (tm := tm)
        ?_ ?_ ?_ ?_ ?_ hTR hTI
      · rw [sA.eq]
      · show m9.trackTriMap = _
        rw [hrest9]
      · rw [sA.eq]
      · show m9.triMap = _
        rw [hrest9]
      · intro k hk
        simp only [List.mem_cons, List.not_mem_nil, or_false] at hk
        rcases hk with rfl | rfl | rfl
        · exact ⟨_, _, h0, G0, rfl⟩
        · exact ⟨_, _, h1, G1, rfl⟩
        · exact ⟨_, _, h2, G2, rfl⟩

def pat32 : Pat 5 3 2 where
  old := ![![3, 4, 1, 0], ![3, 4, 0, 2], ![3, 4, 2, 1]]
  new := ![![0, 1, 2, 3], ![1, 0, 2, 4]]
  oin := fun _ f => decide (f = 2 ∨ f = 3)
  nin := ![![none, none, none, some (1, 3)], ![none, none, none, some (0, 3)]]
  tgt := ![![(1, P2301), (0, P3210), (0, 0), (0, 0)], ![(1, P0231), (0, P2130), (0, 0), (0, 0)],
    ![(1, P3021), (0, P1320), (0, 0), (0, 0)]]
  src := ![![(2, pfe P2301), (1, nfe P2301), (0, P2301), (0, 0)],
    ![(1, pfe P3210), (2, nfe P3210), (0, P3210), (0, 0)]]

set_option maxRecDepth 10000 in
theorem pat32_ok : pat32.OK where
  tgt_tri := by decide
  tgt_out := by decide
  src_tgt := by decide
  tgt_src := by decide
  glue := by unfold pat32; decide
  inj := by unfold Function.Injective; decide
  tin := by decide
  rin := by decide

theorem face_vals32 : face P2301 = 1 ∧ face P3210 = 0 := by decide

theorem moved32 {w o1 o2 : Walker} (n10 : o1.tet ≠ w.tet) (n21 : o2.tet ≠ o1.tet) (n20 : o2.tet ≠ w.tet)
    (i : Fin 3) (c : Code) (hc : pat32.oin i (face c) = false) :
    moved (target (redir32 w o1 o2)) ⟨(![w.tet, o1.tet, o2.tet] : Fin 3 → TId) i,
      toPerm ((![w.edge, o1.edge, o2.edge] : Fin 3 → Code) i) c⟩ =
    ⟨(![w.tet, o1.tet] : Fin 2 → TId) (pat32.ntgt i c).1, (pat32.ntgt i c).2⟩ := by
  have n10' := n10.symm
  have n21' := n21.symm
  have n20' := n20.symm
  have hf : face c = 0 ∨ face c = 1 := by
    have : ∀ f : Fin 4, pat32.oin i f = false → f = 0 ∨ f = 1 := by decide +revert
    exact this _ hc
  rcases fin3 i with rfl | rfl | rfl <;> rcases hf with hf | hf
  · refine Eq.trans (b := (⟨o1.tet, permInv P2301 c⟩ : Walker)) ?_ (by simp only [Pat.ntgt, hf]; rfl)
    simp [moved, redir32, target_cons, Walker.perm, Walker.opp, opp_eq, face_rel, hf, face_vals32, n10,
      n10', n21, n21', n20, n20', permInv_rel]
  · refine Eq.trans (b := (⟨w.tet, permInv P3210 c⟩ : Walker)) ?_ (by simp only [Pat.ntgt, hf]; rfl)
    simp [moved, redir32, target_cons, Walker.perm, Walker.opp, opp_eq, face_rel, hf, face_vals32, n10,
      n10', n21, n21', n20, n20', permInv_rel]
  · refine Eq.trans (b := (⟨o1.tet, permInv P0231 c⟩ : Walker)) ?_ (by simp only [Pat.ntgt, hf]; rfl)
    simp [moved, redir32, target_cons, Walker.perm, Walker.opp, opp_eq, face_rel, hf, face_vals32, n10,
      n10', n21, n21', n20, n20', permInv_rel]
  · refine Eq.trans (b := (⟨w.tet, permInv P2130 c⟩ : Walker)) ?_ (by simp only [Pat.ntgt, hf]; rfl)
    simp [moved, redir32, target_cons, Walker.perm, Walker.opp, opp_eq, face_rel, hf, face_vals32, n10,
      n10', n21, n21', n20, n20', permInv_rel]
  · refine Eq.trans (b := (⟨o1.tet, permInv P3021 c⟩ : Walker)) ?_ (by simp only [Pat.ntgt, hf]; rfl)
    simp [moved, redir32, target_cons, Walker.perm, Walker.opp, opp_eq, face_rel, hf, face_vals32, n10,
      n10', n21, n21', n20, n20', permInv_rel]
  · refine Eq.trans (b := (⟨w.tet, permInv P1320 c⟩ : Walker)) ?_ (by simp only [Pat.ntgt, hf]; rfl)
    simp [moved, redir32, target_cons, Walker.perm, Walker.opp, opp_eq, face_rel, hf, face_vals32, n10,
      n10', n21, n21', n20, n20', permInv_rel]

/-- The two new tets. -/
def tets32 (w o1 o2 : Walker) (t0 t1 t2 at0 at1 at2 ab0 ab1 ab2 : Tet T) : Fin 2 → Tet T :=
  ![tetA32 w o1 o2 t0 t1 t2 at0 at1 at2, tetB32 w o1 o2 t0 t1 t2 at0 at1 at2 ab0 ab1 ab2]

/-- Only the three tets have the edge. -/
theorem Pre32.only {m : Mesh P V T} (hm : ConsistentT m) {w o1 o2 : Walker} {t0 t1 t2 : Tet T}
    (hp : Pre32 m w o1 o2 t0 t1 t2) {k t e} (hk : k ∉ [w.tet, o1.tet, o2.tet])
    (ht : m.tets.get k = some t) : t.edge e ≠ t0.edge w.edge := by
  intro he
  have hr := hm.ring w.tet t0 w.edge k t e hp.h0 ht he
  have key : ∀ y, RingT m.tets.get ⟨w.tet, w.edge⟩ y → y = w ∨ y = o1 ∨ y = o2 := by
    intro y hy
    obtain ⟨-, -, -, -, -, -, -, -, back0, back1, back2⟩ := hp.facts hm
    induction hy with
    | refl => exact .inl rfl
    | @back c t hy' hg ih =>
      obtain ⟨u, hu, hu1, -⟩ := hm.adj c.tet t (twin c.edge) hg
      have fin : ∀ {x : Walker}, (⟨c.tet, twin c.edge⟩ : Walker) = ⟨x.tet, twin x.edge⟩ → c = x := by
        intro x hx
        simp only [Walker.mk.injEq] at hx
        have := congrArg twin hx.2
        rw [twin_twin, twin_twin] at this
        cases c; cases x; simp_all
      rcases ih with ih | ih | ih <;> rw [ih] at hu hu1
      · rw [hp.h0] at hu; cases hu
        rw [back0] at hu1
        exact .inr (.inr (fin hu1.symm))
      · rw [hp.h1] at hu; cases hu
        rw [back1] at hu1
        exact .inl (fin hu1.symm)
      · rw [hp.h2] at hu; cases hu
        rw [back2] at hu1
        exact .inr (.inl (fin hu1.symm))
    | step hy' hg ih =>
      rcases ih with rfl | rfl | rfl
      · rw [hp.h0] at hg; cases hg
        exact .inr (.inl hp.e1)
      · rw [hp.h1] at hg; cases hg
        exact .inr (.inr hp.e2)
      · rw [hp.h2] at hg; cases hg
        exact .inl hp.e3
  have hkey := key _ hr
  apply hk
  rcases hkey with h | h | h <;> rw [← h] <;> simp

theorem Tet.opp_nfe_eq (t : Tet T) (r c : Code) :
    (t.adj (toPerm r c)).nfe = t.adj (toPerm r (pfe c)) := by
  rw [toPerm_pfe, Tet.adj_pfe]

theorem Tet.opp_pfe_eq (t : Tet T) (r c : Code) :
    (t.adj (toPerm r c)).pfe = t.adj (toPerm r (nfe c)) := by
  rw [toPerm_nfe, Tet.adj_nfe]

theorem real32 {m m' : Mesh P V T} (hm : ConsistentT m) {w o1 o2 : Walker} {t0 t1 t2 : Tet T}
    (hp : Pre32 m w o1 o2 t0 t1 t2) {at0 at1 at2 ab0 ab1 ab2}
    (hq : Post32 m m' w o1 o2 t0 t1 t2 at0 at1 at2 ab0 ab1 ab2)
    (hno : ∀ k t e, k ∉ [w.tet, o1.tet, o2.tet] → m.tets.get k = some t →
      t.tri e ≠ (t0.fourth w.edge, t0.third w.edge, t1.fourth o1.edge)) :
    Pat.Real pat32 m m' [w.tet, o1.tet, o2.tet] [w.tet, o1.tet]
      (target (redir32 w o1 o2)) ![w.tet, o1.tet, o2.tet]
      ![w.tet, o1.tet] ![w.edge, o1.edge, o2.edge] ![t0, t1, t2]
      (tets32 w o1 o2 t0 t1 t2 at0 at1 at2 ab0 ab1 ab2)
      ![t0.fourth w.edge, t0.third w.edge, t1.fourth o1.edge, t0.first w.edge, t0.second w.edge] := by
  obtain ⟨n10, n21, n20, f1, f2, out0, out1, out2, back0, back1, back2⟩ := hp.facts hm
  obtain ⟨f1a, f1b, f1c⟩ := f1
  obtain ⟨f2a, f2b, f2c, f2d⟩ := f2
  have d0 := Tet.distinct_vals (hm.distinct _ _ hp.h0) w.edge
  have d1 := Tet.distinct_vals (hm.distinct _ _ hp.h1) o1.edge
  have d2 := Tet.distinct_vals (hm.distinct _ _ hp.h2) o2.edge
  have in3 : ∀ r c, face c = 2 ∨ face c = 3 → face (toPerm r c) = face r ∨
    face (toPerm r c) = face (twin r) := by decide
  have fnfe : ∀ r c, face (toPerm r (nfe c)) = face (toPerm r c) := by
    intro r c; rw [toPerm_nfe, face_nfe]
  have fpfe : ∀ r c, face (toPerm r (pfe c)) = face (toPerm r c) := by
    intro r c; rw [toPerm_pfe, face_pfe]
  have lk : ∀ {k t a} (e), m.tets.get k = some t → m.tets.get (t.adj e).tet = some a →
      a.flags.locked (face (nfe (t.adj e).edge)) = t.flags.locked (face e) ∧
      a.flags.locked (face (pfe (t.adj e).edge)) = t.flags.locked (face e) := by
    intro k t a e ht ha
    rw [face_nfe, face_pfe]
    exact ⟨hm.locks _ _ _ _ ht ha, hm.locks _ _ _ _ ht ha⟩
  refine ⟨?_, ?_, ?_, ?_, ?_, ?_, ?_, ?_, ?_, ?_, ?_, ?_, ?_, ?_, ?_, ?_, ?_, ?_, ?_, ?_⟩
  · intro k; simp [Fin.exists_fin_succ]
  · intro k; simp [Fin.exists_fin_succ]
  · intro i
    rcases fin3 i with rfl | rfl | rfl
    · exact hp.h0
    · exact hp.h1
    · exact hp.h2
  · intro i
    rcases fin2 i with rfl | rfl
    · exact (hq.get _).trans (if_pos rfl)
    · exact (hq.get _).trans ((if_neg n10).trans (if_pos rfl))
  · intro i hi
    rcases fin2 i with rfl | rfl
    · exact absurd (by simp) hi
    · exact absurd (by simp) hi
  · intro i hi
    rcases fin3 i with rfl | rfl | rfl
    · exact absurd (by simp) hi
    · exact absurd (by simp) hi
    · exact (hq.get _).trans ((if_neg n20).trans ((if_neg n21).trans (if_pos rfl)))
  · intro k hk hk'
    simp only [List.mem_cons, List.not_mem_nil, or_false, not_or] at hk hk'
    exact (hq.get _).trans ((if_neg hk.1).trans ((if_neg hk.2.1).trans (if_neg hk.2.2)))
  · apply inj5
    omega
  · intro i j
    rcases fin3 i with rfl | rfl | rfl <;> rcases fin4 j with rfl | rfl | rfl | rfl
    · exact (Tet.first_eq _ _).symm
    · exact (Tet.second_eq _ _).symm
    · exact (Tet.third_eq _ _).symm
    · exact (Tet.fourth_eq _ _).symm
    · exact (Tet.first_eq _ _).symm.trans f1a
    · exact (Tet.second_eq _ _).symm.trans f1b
    · exact (Tet.third_eq _ _).symm.trans f1c
    · exact (Tet.fourth_eq _ _).symm
    · exact (Tet.first_eq _ _).symm.trans f2a
    · exact (Tet.second_eq _ _).symm.trans f2b
    · exact (Tet.third_eq _ _).symm.trans f2c
    · exact (Tet.fourth_eq _ _).symm.trans f2d
  · intro i j
    rcases fin2 i with rfl | rfl <;> rcases fin4 j with rfl | rfl | rfl | rfl <;> rfl
  · intro i c hc
    have hc3 : face c = 2 ∨ face c = 3 := of_decide_eq_true hc
    rcases fin3 i with rfl | rfl | rfl
    · show (t0.adj (toPerm w.edge c)).tet ∈ _
      rw [Tet.adj_tet]
      rcases in3 w.edge c hc3 with h | h <;> rw [h, ← Tet.adj_tet]
      · rw [back0]; simp
      · rw [hp.e1]; simp
    · show (t1.adj (toPerm o1.edge c)).tet ∈ _
      rw [Tet.adj_tet]
      rcases in3 o1.edge c hc3 with h | h <;> rw [h, ← Tet.adj_tet]
      · rw [back1]; simp
      · rw [hp.e2]; simp
    · show (t2.adj (toPerm o2.edge c)).tet ∈ _
      rw [Tet.adj_tet]
      rcases in3 o2.edge c hc3 with h | h <;> rw [h, ← Tet.adj_tet]
      · rw [back2]; simp
      · rw [hp.e3]; simp
  · intro i c hc
    have hc3 := of_decide_eq_false hc
    rw [not_or] at hc3
    rcases fin3 i with rfl | rfl | rfl
    · exact out0 c hc3.1 hc3.2
    · exact out1 c hc3.1 hc3.2
    · exact out2 c hc3.1 hc3.2
  · exact moved32 n10 n21 n20
  · intro j f y hy
    rcases fin2 j with rfl | rfl <;> rcases fin4 f with rfl | rfl | rfl | rfl <;>
      first
      | (cases (show some _ = some y from hy); rfl)
      | exact absurd (show (none : Option (Fin 2 × Code)) = some y from hy) (by simp)
  · intro j f hf
    rcases fin2 j with rfl | rfl <;> rcases fin4 f with rfl | rfl | rfl | rfl
    · exact (congrArg (fun x => (t2.adj x).nfe) (opp_eq _)).trans (t2.opp_nfe_eq o2.edge P2301)
    · exact (congrArg (fun x => (t1.adj x).pfe) (opp_eq _)).trans (t1.opp_pfe_eq o1.edge P2301)
    · exact congrArg (fun x => t0.adj x) (opp_eq _)
    · exact absurd hf (by decide)
    · exact t1.opp_nfe_eq o1.edge P3210
    · exact t2.opp_pfe_eq o2.edge P3210
    · rfl
    · exact absurd hf (by decide)
  · intro j f hf
    rcases fin2 j with rfl | rfl <;> rcases fin4 f with rfl | rfl | rfl | rfl <;>
      first
      | exact absurd hf (by decide)
      | rfl
  · intro j f hf
    rcases fin2 j with rfl | rfl <;> rcases fin4 f with rfl | rfl | rfl | rfl
    · exact (lk _ hp.h2 hq.nt2).1.trans (congrArg _ ((congrArg face (opp_eq _)).trans (fpfe _ _).symm))
    · exact (lk _ hp.h1 hq.nt1).2.trans (congrArg _ ((congrArg face (opp_eq _)).trans (fnfe _ _).symm))
    · exact (hm.locks _ _ _ _ hp.h0 hq.nt0).trans (congrArg _ (congrArg face (opp_eq _)))
    · exact absurd hf (by decide)
    · exact (lk _ hp.h1 hq.nb1).1.trans (congrArg _ (fpfe _ _).symm)
    · exact (lk _ hp.h2 hq.nb2).2.trans (congrArg _ (fnfe _ _).symm)
    · exact hm.locks _ _ _ _ hp.h0 hq.nb0
    · exact absurd hf (by decide)
  · intro j d
    left
    have : ∀ j d, ∃ i c, pedge (pat32.old i) c = pedge (pat32.new j) d := by decide
    exact this j d
  · intro i c
    have : ∀ i c, (∃ j d, pedge (pat32.new j) d = pedge (pat32.old i) c) ∨
      pedge (pat32.old i) c = (3, 4) ∨ pedge (pat32.old i) c = (4, 3) := by decide
    rcases this i c with h | h | h
    · exact .inl h
    · right
      rw [h]
      intro k t e hk ht
      exact hp.only hm hk ht
    · right
      rw [h]
      intro k t e hk ht he
      refine hp.only hm (e := twin e) hk ht ?_
      rw [Surgery.edge_twin, he]
      rfl
  · intro j d hd k t e hk ht he
    have : ∀ j d, pat32.nin j (face d) ≠ none →
        ∃ s, ptri (pat32.new j) (turnCode s d) = (0, 1, 2) ∨ ptri (pat32.new j) (turnCode s d) = (1, 0, 2) := by
      unfold pat32; decide
    have turn : ∀ s, t.tri (turnCode s e) = map3 ![t0.fourth w.edge, t0.third w.edge,
        t1.fourth o1.edge, t0.first w.edge, t0.second w.edge] (ptri (pat32.new j) (turnCode s d)) := by
      intro s
      have hn : ∀ e, t.tri (nfe e) = ((t.tri e).2.1, (t.tri e).2.2, (t.tri e).1) := by
        intro e
        have : ∀ e, perms (nfe e) 0 = perms e 1 ∧ perms (nfe e) 1 = perms e 2 ∧
          perms (nfe e) 2 = perms e 0 := by decide
        simp only [Tet.tri_eq, ptri, this]
      have hn' : ∀ (q : Fin 4 → Fin 5) e, ptri q (nfe e) = ((ptri q e).2.1, (ptri q e).2.2, (ptri q e).1) := by
        intro q e
        have : ∀ e, perms (nfe e) 0 = perms e 1 ∧ perms (nfe e) 1 = perms e 2 ∧
          perms (nfe e) 2 = perms e 0 := by decide
        simp only [ptri, this]
      have hpn : ∀ e, pfe e = nfe (nfe e) := by decide
      simp only [turnCode]
      split
      · exact he
      · rw [hpn, hpn, hn, hn, hn', hn', he]; rfl
      · rw [hn, hn', he]; rfl
    have opps : ∃ k' t' e', k' ∉ [w.tet, o1.tet, o2.tet] ∧ m.tets.get k' = some t' ∧
        t'.tri e' = (t0.third w.edge, t0.fourth w.edge, t1.fourth o1.edge) ∨
        m.tets.get k' = some t' ∧ k' ∉ [w.tet, o1.tet, o2.tet] ∧ 
        t'.tri e' = (t0.fourth w.edge, t0.third w.edge, t1.fourth o1.edge) := by
      obtain ⟨s, h | h⟩ := this j d hd
      · refine ⟨k, t, turnCode s e, .inr ⟨ht, hk, ?_⟩⟩
        rw [turn s, h]; rfl
      · refine ⟨k, t, turnCode s e, .inl ⟨hk, ht, ?_⟩⟩
        rw [turn s, h]; rfl
    obtain ⟨k', t', e', ⟨h1, h2, h3⟩ | ⟨h2, h1, h3⟩⟩ := opps
    · obtain ⟨u, hu, hu1, hu2⟩ := hm.adj k' t' e' h2
      have hu3 : u.tri (t'.adj e').edge = (t0.fourth w.edge, t0.third w.edge, t1.fourth o1.edge) := by
        rw [hu2]
        simp only [Tet.tri, Prod.mk.injEq] at h3
        rw [h3.1, h3.2.1, h3.2.2]
      by_cases hin : (t'.adj e').tet ∈ [w.tet, o1.tet, o2.tet]
      · -- none of the three tets has all of the three vertices
        have vals : ∀ (t : Tet T) (e x : Code), ∀ v, (v = t.first x ∨ v = t.second x ∨ v = t.third x) →
            v = t.first e ∨ v = t.second e ∨ v = t.third e ∨ v = t.fourth e := by
          intro t e x v hv
          have : ∀ (e : Code) (j : Fin 4), j = perms e 0 ∨ j = perms e 1 ∨ j = perms e 2 ∨ j = perms e 3 := by
            decide
          simp only [Tet.first_eq, Tet.second_eq, Tet.third_eq, Tet.fourth_eq] at hv ⊢
          obtain ⟨j, hj⟩ : ∃ j, v = t.vertices j := by
            rcases hv with h | h | h <;> exact ⟨_, h⟩
          rcases this e j with h | h | h | h <;> rw [hj, h] <;> simp
        simp only [Tet.tri, Prod.mk.injEq] at hu3
        simp only [List.mem_cons, List.not_mem_nil, or_false] at hin
        rcases hin with hin | hin | hin <;> rw [hin] at hu
        · rw [hp.h0] at hu; cases hu
          have := vals t0 w.edge _ _ (.inr (.inr hu3.2.2.symm))
          omega
        · rw [hp.h1] at hu; cases hu
          have := vals t1 o1.edge _ _ (.inr (.inl hu3.2.1.symm))
          omega
        · rw [hp.h2] at hu; cases hu
          have := vals t2 o2.edge _ _ (.inl hu3.1.symm)
          omega
      · exact hno _ u _ hin hu hu3
    · exact hno k' t' e' h1 h2 h3

/-- Where the edge ids of the new tets come from. -/
def slot32 : Fin 2 → Fin 6 → Fin 3 × Code :=
  ![![(1, nfe P2301), (0, P2301), (2, P2301), (0, nfe P2301), (2, nfe P2301), (1, P2301)],
    ![(1, pfe P3210), (0, P2301), (1, P2301), (2, pfe P3210), (0, pfe P3210), (2, P2301)]]

theorem slot32_ok : ∀ j s,
    pedge (pat32.new j) (toUndirEdge s) = pedge (pat32.old (slot32 j s).1) (slot32 j s).2 ∨
    pedge (pat32.new j) (toUndirEdge s) = (pedge (pat32.old (slot32 j s).1) (slot32 j s).2).swap := by
  decide

theorem flip32_surgery {m m' : Mesh P V T} (hm : ConsistentT m) {w o1 o2 : Walker} {t0 t1 t2 : Tet T}
    (hp : Pre32 m w o1 o2 t0 t1 t2) {at0 at1 at2 ab0 ab1 ab2}
    (hq : Post32 m m' w o1 o2 t0 t1 t2 at0 at1 at2 ab0 ab1 ab2)
    (hno : ∀ k t e, k ∉ [w.tet, o1.tet, o2.tet] → m.tets.get k = some t →
      t.tri e ≠ (t0.fourth w.edge, t0.third w.edge, t1.fourth o1.edge)) :
    MeshSurgery m m' [w.tet, o1.tet, o2.tet] [w.tet, o1.tet] (target (redir32 w o1 o2)) := by
  have hr := real32 hm hp hq hno
  have h0 := hp.h0
  have h1 := hp.h1
  have h2 := hp.h2
  obtain ⟨old, hed⟩ := hq.edges
  obtain ⟨es, hes, ewf, eget, -⟩ := IdMap.remove_spec (t2.undirEdge o2.edge) hm.stored.2.1
  rw [hed] at hes
  simp only [Option.some.injEq, Prod.mk.injEq] at hes
  rw [← hes.1] at ewf eget
  obtain ⟨-, -, -, -, f2, -⟩ := hp.facts hm
  obtain ⟨ue2, hue2, hv2⟩ := hm.eptr _ _ o2.edge h2
  have hv2' : ue2.vertices = sorted2 (t0.edge w.edge) := by
    rw [hv2]
    simp only [Tet.edge, f2.1, f2.2.1]
  have t0e : t0.undirEdge w.edge = t2.undirEdge o2.edge := by
    obtain ⟨ue0, hue0, hv0⟩ := hm.eptr _ _ w.edge h0
    exact hm.eunique _ _ _ _ hue0 hue2 (by rw [hv0, hv2'])
  have eslot : ∀ j s, (tets32 w o1 o2 t0 t1 t2 at0 at1 at2 ab0 ab1 ab2 j).edges s =
      ((![t0, t1, t2] : Fin 3 → Tet T) (slot32 j s).1).undirEdge
        (toPerm ((![w.edge, o1.edge, o2.edge] : Fin 3 → Code) (slot32 j s).1) (slot32 j s).2) := by
    intro j s
    have A0 : at0.undirEdge (t0.adj (opp w.edge)).edge = t0.undirEdge (toPerm w.edge P2301) :=
      (nbr_undir hm h0 hq.nt0).trans (congrArg _ (opp_eq _))
    have A1 : at1.undirEdge (t1.adj (opp o1.edge)).edge = t1.undirEdge (toPerm o1.edge P2301) :=
      (nbr_undir hm h1 hq.nt1).trans (congrArg _ (opp_eq _))
    have A2 : at2.undirEdge (t2.adj (opp o2.edge)).edge = t2.undirEdge (toPerm o2.edge P2301) :=
      (nbr_undir hm h2 hq.nt2).trans (congrArg _ (opp_eq _))
    have B0 : at0.undirEdge (pfe (t0.adj (opp w.edge)).edge) = t0.undirEdge (toPerm w.edge (nfe P2301)) :=
      (nbr_undir_pfe hm h0 hq.nt0).trans (congrArg _ (by rw [toPerm_nfe, opp_eq]))
    have B1 : at1.undirEdge (pfe (t1.adj (opp o1.edge)).edge) = t1.undirEdge (toPerm o1.edge (nfe P2301)) :=
      (nbr_undir_pfe hm h1 hq.nt1).trans (congrArg _ (by rw [toPerm_nfe, opp_eq]))
    have B2 : at2.undirEdge (pfe (t2.adj (opp o2.edge)).edge) = t2.undirEdge (toPerm o2.edge (nfe P2301)) :=
      (nbr_undir_pfe hm h2 hq.nt2).trans (congrArg _ (by rw [toPerm_nfe, opp_eq]))
    have C0 := (nbr_undir_nfe hm h0 hq.nb0).trans (congrArg t0.undirEdge (toPerm_pfe w.edge P3210).symm)
    have C1 := (nbr_undir_nfe hm h1 hq.nb1).trans (congrArg t1.undirEdge (toPerm_pfe o1.edge P3210).symm)
    have C2 := (nbr_undir_nfe hm h2 hq.nb2).trans (congrArg t2.undirEdge (toPerm_pfe o2.edge P3210).symm)
    rcases fin2 j with rfl | rfl <;> rcases fin6 s with rfl | rfl | rfl | rfl | rfl | rfl
    · exact B1
    · exact A0
    · exact A2
    · exact B0
    · exact B2
    · exact A1
    · exact C1
    · exact A0
    · exact A1
    · exact C2
    · exact C0
    · exact A2
  have slotne : ∀ j s, ¬ (pedge (pat32.old (slot32 j s).1) (slot32 j s).2 = (3, 4) ∨
      pedge (pat32.old (slot32 j s).1) (slot32 j s).2 = (4, 3)) := by decide
  -- an edge with the id of the removed edge is that edge
  have same : ∀ {k t e}, m.tets.get k = some t → t.undirEdge e = t2.undirEdge o2.edge →
      t.edge e = t0.edge w.edge ∨ t.edge e = (t0.edge w.edge).swap := by
    intro k t e ht he
    obtain ⟨ue, a, b⟩ := hm.eptr k t e ht
    rw [he, hue2] at a
    cases a
    rw [hv2'] at b
    rcases (sorted2_eq_iff _ _).1 b with b | b
    · exact .inl b
    · exact .inr b
  have enew := slots_enough (E := m'.edges.get) (tets32 w o1 o2 t0 t1 t2 at0 at1 at2 ab0 ab1 ab2)
    ![t0.fourth w.edge, t0.third w.edge, t1.fourth o1.edge, t0.first w.edge, t0.second w.edge]
    pat32.new (by
      intro j s
      rw [eslot j s]
      have hO := hr.getO (slot32 j s).1
      obtain ⟨ue, h2, h3⟩ := hm.eptr _ _ (toPerm ((![w.edge, o1.edge, o2.edge] : Fin 3 → Code)
        (slot32 j s).1) (slot32 j s).2) hO
      refine ⟨ue, ?_, h3.trans ?_⟩
      · rw [eget, if_neg, h2]
        intro hee
        have := same hO hee
        rw [hr.edgeO] at this
        refine slotne j s ?_
        rcases this with h | h
        · exact .inl (map2_inj hr.injL (h.trans rfl))
        · exact .inr (map2_inj hr.injL (h.trans rfl))
      · rw [hr.edgeO, sorted2_eq_iff]
        rcases slot32_ok j s with h4 | h4
        · exact .inl (by rw [h4])
        · exact .inr (by rw [h4]; rfl))
  have allold : ∀ j d, ∃ i c, pedge (pat32.old i) c = pedge (pat32.new j) d := by decide
  obtain ⟨k1, k2, k3⟩ := hr.edges pat32_ok hm enew
    (by
      intro e ue he
      by_cases hee : e = t2.undirEdge o2.edge
      · right
        intro k t i hk ht hi
        have hui : ∀ i, undirIdx (toUndirEdge i) = i := by decide
        have : t.undirEdge (toUndirEdge i) = t2.undirEdge o2.edge := by
          rw [← hee, ← hi, Tet.undirEdge, hui]
        rcases same ht this with h | h
        · exact hp.only hm hk ht h
        · refine hp.only hm (e := twin (toUndirEdge i)) hk ht ?_
          rw [Surgery.edge_twin, h]
          rfl
      · left
        rw [eget, if_neg hee, he])
    (by
      intro e ue he
      rw [eget] at he
      split at he
      · simp at he
      · exact .inl he)
    (by
      intro j d j' d' hj hs
      exact absurd (allold j d) hj)
    (by
      intro i c hic
      have : ∀ i c, (∃ j d, pedge (pat32.new j) d = pedge (pat32.old i) c) ∨
        pedge (pat32.old i) c = (3, 4) ∨ pedge (pat32.old i) c = (4, 3) := by decide
      have hO := hr.getO i
      obtain ⟨ue, a, b⟩ := hm.eptr _ _ (toPerm ((![w.edge, o1.edge, o2.edge] : Fin 3 → Code) i) c) hO
      have hs : sorted2 (t0.edge w.edge) = sorted2 (map2 ![t0.fourth w.edge, t0.third w.edge,
          t1.fourth o1.edge, t0.first w.edge, t0.second w.edge] (pedge (pat32.old i) c)) := by
        rw [sorted2_eq_iff]
        rcases this i c with h | h | h
        · exact absurd h hic
        · rw [h]; exact .inl rfl
        · rw [h]; exact .inr rfl
      rw [hr.edgeO, ← hs] at b
      have := hm.eunique _ _ _ _ a hue2 (by rw [b, hv2'])
      rw [this, eget, if_pos rfl])
  have hrest := hq.rest
  refine hr.meshSurgery pat32_ok hm ?_ _ (by rw [hrest]) ?_ ?_ ⟨ewf, hq.wf⟩ (by rw [hrest]) hq.tri
    k1 enew k2 k3
  · intro v hv j d hj
    exfalso
    have : ∀ j d, ∃ i b, pat32.old i b = pat32.new j d := by decide
    obtain ⟨i, b, hib⟩ := this j d
    exact hv ⟨i, b, by rw [hj, hib]⟩
  · intro q hq
    simp only [List.mem_cons, List.not_mem_nil, or_false] at hq
    rcases hq with rfl | rfl | rfl | rfl | rfl
    · exact ⟨0, 3, rfl, rfl⟩
    · exact ⟨0, 7, rfl, rfl⟩
    · exact ⟨0, 11, rfl, rfl⟩
    · exact ⟨0, 0, rfl, rfl⟩
    · exact ⟨1, 0, rfl, rfl⟩
  · intro a
    rcases fin5 a with rfl | rfl | rfl | rfl | rfl
    · exact ⟨_, .head _⟩
    · exact ⟨_, .tail _ (.head _)⟩
    · exact ⟨_, .tail _ (.tail _ (.head _))⟩
    · exact ⟨_, .tail _ (.tail _ (.tail _ (.head _)))⟩
    · exact ⟨_, .tail _ (.tail _ (.tail _ (.tail _ (.head _))))⟩

end Tet
