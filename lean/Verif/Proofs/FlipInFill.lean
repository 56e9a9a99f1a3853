import Verif.Proofs.FlipInDup

/-!
# Filling a cavity: the new tets and their links
-/

namespace Tet
open Spec
variable {P V T : Type}

/-- The new tet on an outer triangle, without its links. -/
def Tet.setup (v : VId) (f : Fin 4) (t : Tet T) : Tet T :=
  { t with
    vertices := Function.update t.vertices f v
    flags := { t.flags with
      boundary := false, needsDuplication := false, locked := fun i => if i = f then t.flags.locked i else false } }

theorem Tet.setup_eq (v : VId) (e : Code) (t : Tet T) :
    ((((t.setBoundary false).setDup false).clearLocked [face (e + 1), face (e + 2), face (e + 3)]).setVertex
      (face e) v) = t.setup v (face e) := by
  refine Tet.ext_fields rfl rfl rfl ?_ rfl
  show TFlags.mk _ _ _ _ _ _ _ = TFlags.mk _ _ _ _ _ _ _
  congr 1
  funext i
  have key : ∀ (e : Code) (i : Fin 4), i ∈ [face (e + 1), face (e + 2), face (e + 3)] ↔ ¬ i = face e := by decide
  show (if i ∈ [face (e + 1), face (e + 2), face (e + 3)] then _ else _) = _
  rw [if_congr (key e i) rfl rfl, ite_not]
  rfl

theorem Tet.setup_tri (v : VId) (e : Code) (t : Tet T) : (t.setup v (face e)).tri e = t.tri e := by
  have key : ∀ e, firstIdx e ≠ face e ∧ secondIdx e ≠ face e ∧ thirdIdx e ≠ face e := by decide
  obtain ⟨h1, h2, h3⟩ := key e
  simp only [Tet.tri, Tet.first, Tet.second, Tet.third, Tet.setup, Function.update_of_ne h1, Function.update_of_ne h2,
    Function.update_of_ne h3]

open Classical in
theorem fiSetup_step (v : VId) (m : Mesh P V T) {w : Walker} {t x} (ht : m.tets.get w.tet = some t)
    (he : ∀ c, (c = w.edge ∨ c = _root_.Tet.nfe w.edge ∨ c = _root_.Tet.pfe w.edge) →
      ∃ ue, m.edges.get (t.undirEdge c) = some ue)
    (hx : m.vertices.get v = some x) :
    ∃ m', m.fiSetup v w = some m' ∧ m' = { m with tets := m'.tets, edges := m'.edges, vertices := m'.vertices } ∧
      (m.tets.WF → m'.tets.WF) ∧ (m.edges.WF → m'.edges.WF) ∧ m'.tets.size = m.tets.size ∧ m'.edges.size = m.edges.size ∧
      (∀ j, m'.tets.get j = if j = w.tet then some (t.setup v (face w.edge)) else m.tets.get j) ∧
      (∀ e, m'.edges.get e = (m.edges.get e).map fun ue => if t.triEdge w.edge e then { ue with boundary := false } else ue) ∧
      m'.vertices = setTets m.vertices ((if x.tet.tet = idMax then [(v, w.perm P3210)] else []) ++
        [(t.first w.edge, w), (t.second w.edge, w.nfe), (t.third w.edge, w.pfe)]) := by
  obtain ⟨m1, a1, a2, a3⟩ := m.modTet_step (fun t => (t.setBoundary false).setDup false) ht
  have a3w := a3 w.tet
  rw [if_pos rfl] at a3w
  obtain ⟨m2, b1, b2, b3⟩ := flagEdges_step false m1 a3w (by
    intro c hc
    rw [show m1.edges = m.edges by rw [a2.eq]]
    exact he c hc)
  have g2 : m2.tets.get w.tet = some ((fun t : Tet T => (t.setBoundary false).setDup false) t) := by
    rw [show m2.tets = m1.tets by rw [b2.eq]]; exact a3w
  obtain ⟨m3, c1, c2, c3⟩ := m2.modTet_step
    (·.clearLocked [face (w.edge + 1), face (w.edge + 2), face (w.edge + 3)]) g2
  have c3w := c3 w.tet
  rw [if_pos rfl] at c3w
  obtain ⟨m4, d1, d2, d3⟩ := m3.modTet_step (·.setVertex (face w.edge) v) c3w
  have hset := Tet.setup_eq v w.edge t
  have hv4 : m4.vertices = m.vertices := by rw [d2.eq, c2.eq, b2.eq, a2.eq]
  have g4 : ∀ j, m4.tets.get j = if j = w.tet then some (t.setup v (face w.edge)) else m.tets.get j := by
    intro j
    rw [d3]
    split_ifs with hj
    · exact congrArg some hset
    · rw [c3, if_neg hj, show m2.tets = m1.tets by rw [b2.eq], a3, if_neg hj]
  have htri : m4.tri w = some (t.tri w.edge) := by
    simp only [Mesh.tri]
    rw [g4, if_pos rfl, Option.map_some, Tet.setup_tri]
  have e4 : m4.edges = m2.edges := by rw [d2.eq, c2.eq]
  have eq4 : m4 = { m with tets := m4.tets, edges := m4.edges } := by
    rw [d2.eq, c2.eq, b2.eq, a2.eq]
  refine ⟨{ m4 with vertices := setTets m.vertices ((if x.tet.tet = idMax then [(v, w.perm P3210)] else []) ++
        [(t.first w.edge, w), (t.second w.edge, w.nfe), (t.third w.edge, w.pfe)]) }, ?_, ?_, ?_, ?_, ?_, ?_, g4, ?_, rfl⟩
  · simp only [Mesh.fiSetup]
    rw [a1, Option.bind_eq_bind, Option.bind_some, b1, Option.bind_eq_bind, Option.bind_some, c1, Option.bind_eq_bind,
      Option.bind_some, d1]
    simp only [Option.bind_eq_bind, Option.bind_some]
    rw [hv4, hx]
    simp only [Option.bind_some]
    by_cases hc : x.tet.tet = idMax
    · simp only [if_pos hc]
      rw [show (m4.setVertexTet v (w.perm P3210)).tri w = m4.tri w from rfl, htri]
      simp only [Option.bind_eq_bind, Option.bind_some, Tet.tri, Mesh.setVertexTet, hv4, setTets, List.foldl_append,
        List.foldl_cons, List.foldl_nil]
      rfl
    · simp only [if_neg hc]
      rw [htri]
      simp only [Option.bind_eq_bind, Option.bind_some, Tet.tri, Mesh.setVertexTet, hv4, setTets, List.foldl_append,
        List.foldl_cons, List.foldl_nil]
      rfl
  · show Mesh.mk _ _ _ _ _ _ _ _ = _
    rw [eq4]
  · exact fun hw => d2.wf (c2.wf (by rw [show m2.tets = m1.tets by rw [b2.eq]]; exact a2.wf hw))
  · intro hw
    show m4.edges.WF
    rw [e4]
    exact b2.wf (by rw [show m1.edges = m.edges by rw [a2.eq]]; exact hw)
  · show m4.tets.size = _
    rw [d2.size, c2.size, show m2.tets = m1.tets by rw [b2.eq], a2.size]
  · show m4.edges.size = _
    rw [e4, b2.size, show m1.edges = m.edges by rw [a2.eq]]
  · intro e
    show m4.edges.get e = _
    rw [e4, b3, show m1.edges = m.edges by rw [a2.eq]]
    rfl

/-! ## The invariant -/

/-- A new tet while the cavity is filled: `x` is the outer triangle it stands on. -/
structure FTet (v : VId) (A : TId × Fin 4 → TId) (mate : Walker → Walker) (S : List (TId × Fin 4)) (D : Walker → Prop)
    (x : TId × Fin 4) (t t' : Tet T) : Prop where
  vertices : t'.vertices = if x ∈ S then Function.update t.vertices x.2 v else t.vertices
  edges : t'.edges = t.edges
  value : t'.value = t.value
  opp : t'.opp x.2 = t.opp x.2
  flags : t'.flags = if x ∈ S then (t.setup v x.2).flags else ((t.setBoundary true).setDup true).flags
  links : ∀ h, fid h = x → D h → D (mate h) → t'.adj (twin h.edge) = (nw A (mate h)).twin

structure FillInv (m m3 : Mesh P V T) (v : VId) (E : List TId) (A : TId × Fin 4 → TId) (mate : Walker → Walker)
    (S : List (TId × Fin 4)) (D : Walker → Prop) (cur : Mesh P V T) : Prop where
  eq : cur = { m3 with tets := cur.tets, edges := cur.edges, vertices := cur.vertices }
  twf : cur.tets.WF
  ewf : cur.edges.WF
  tsize : cur.tets.size = m3.tets.size
  esize : cur.edges.size = m3.edges.size
  out : ∀ k, (∀ w, Outer m E w → k ≠ A (fid w)) → cur.tets.get k = m3.tets.get k
  inn : ∀ w t, Outer m E w → m.tets.get w.tet = some t →
    ∃ t', cur.tets.get (A (fid w)) = some t' ∧ FTet v A mate S D (fid w) t t'
  edges : ∀ e ue, m3.edges.get e = some ue → ∃ b bw, cur.edges.get e = some { ue with boundary := b, boundaryWalker := bw } ∧
    (b = true → ue.boundary = true ∧ ∀ w, fid w ∈ S → m.undirEdge w ≠ some e) ∧
    (∀ h, Outer m E h → m.undirEdge h = some e → D h → ¬ D (mate h) → bw = nw A h) ∧
    ((∀ h, Outer m E h → m.undirEdge h = some e → (D h ↔ D (mate h))) → bw.tet = idMax)
  eonly : ∀ e, m3.edges.get e = none → cur.edges.get e = none
  verts : ∃ L, cur.vertices = setTets m3.vertices L ∧
    (∀ p ∈ L, (∃ w, Outer m E w ∧ p = (v, (nw A w).perm P3210)) ∨ ∃ h, Outer m E h ∧ m.first h = some p.1 ∧ p.2 = nw A h) ∧
    (∀ h u, Outer m E h → fid h ∈ S → m.first h = some u → ∃ p ∈ L, p.1 = u) ∧ (S ≠ [] → ∃ p ∈ L, p.1 = v)

section
variable {m : Mesh P V T} {v : VId} {B : List Walker} {E : List TId} {A : TId × Fin 4 → TId} {m2 m3 : Mesh P V T}
  {mate : Walker → Walker}

/-- What `FI.exists_mate` gives. -/
def IsMate (m : Mesh P V T) (E : List TId) (mate : Walker → Walker) : Prop := ∀ w, Outer m E w → Outer m E (mate w) ∧
    (∀ a b, m.edge w = some (a, b) → m.edge (mate w) = some (b, a)) ∧ mate (mate w) = w

/-- The edges of outer triangles are still there. -/
theorem FI.m3_edge (h : FI m v B E) (h2 : Dropped m B E m2) (h3 : Dupped m B E A m2 m3) {w : Walker} (hw : Outer m E w)
    {t} (ht : m.tets.get w.tet = some t) : ∃ ue, m.edges.get (t.undirEdge w.edge) = some ue ∧
      m3.edges.get (t.undirEdge w.edge) = some { ue with boundary := true } := by
  obtain ⟨ue, h4, -⟩ := h.cons.eptr _ t w.edge ht
  refine ⟨ue, h4, ?_⟩
  rw [show m3.edges = m2.edges by rw [h3.eq]]
  refine h2.touched _ _ ?_ h4
  obtain ⟨b, hb, e⟩ := h.base hw
  have e1 : w.tet = b.tet := congrArg Prod.fst e
  refine ⟨b, hb, t, e1 ▸ ht, ?_⟩
  rcases (sameTri_iff b w).2 e with h' | h' | h' <;> rw [h']
  · exact .inl rfl
  · exact .inr (.inl rfl)
  · exact .inr (.inr rfl)

theorem FI.fillInv_nil (h : FI m v B E) (h2 : Dropped m B E m2) (h3 : Dupped m B E A m2 m3) :
    FillInv m m3 v E A mate [] (fun _ => False) m3 where
  eq := rfl
  twf := h3.wf
  ewf := by rw [show m3.edges = m2.edges by rw [h3.eq]]; exact h2.ewf
  tsize := rfl
  esize := rfl
  out := fun _ _ => rfl
  inn := fun w t hw ht => ⟨_, h3.inn w hw t ht, ⟨rfl, rfl, rfl, rfl, rfl, fun _ _ hd => hd.elim⟩⟩
  edges := fun e ue he => ⟨ue.boundary, ue.boundaryWalker, he, fun hb => ⟨hb, by simp⟩, fun _ _ _ hd => hd.elim, fun _ => by
    rw [show m3.edges = m2.edges by rw [h3.eq]] at he
    by_cases ht : Touched m B e
    · cases hme : m.edges.get e with
      | none =>
        obtain ⟨b, hb, t, h4, h5⟩ := ht
        have : ∃ c, e = t.undirEdge c := by
          rcases h5 with h5 | h5 | h5
          exacts [⟨_, h5⟩, ⟨_, h5⟩, ⟨_, h5⟩]
        obtain ⟨c, rfl⟩ := this
        obtain ⟨ue', h6, -⟩ := h.cons.eptr _ t c h4
        rw [hme] at h6; cases h6
      | some ue' =>
        rw [h2.touched e ue' ht hme] at he
        cases he
        exact (h.tidy.edges e ue' hme).2
    · by_cases hk : ∀ k t i, k ∈ E → m.tets.get k = some t → t.edges i ≠ e
      · rw [h2.kept e ht hk] at he
        exact (h.tidy.edges e ue he).2
      · push Not at hk
        obtain ⟨k, t, i, h4, h5, h6⟩ := hk
        rw [h2.gone e k t i ht h4 h5 h6] at he
        cases he⟩
  eonly := fun _ he => he
  verts := ⟨[], rfl, by simp, by simp, by simp⟩

theorem FI.setup_step (h : FI m v B E) (h2 : Dropped m B E m2) (h3 : Dupped m B E A m2 m3) {S : List (TId × Fin 4)}
    {D : Walker → Prop} {cur : Mesh P V T} (hi : FillInv m m3 v E A mate S D cur) {w : Walker} (hw : Outer m E w)
    (hS : fid w ∉ S) :
    ∃ cur', cur.fiSetup v (nw A w) = some cur' ∧ FillInv m m3 v E A mate (fid w :: S) D cur' := by
  classical
  obtain ⟨t, ht⟩ := h.get hw
  obtain ⟨t1, ht1, hF⟩ := hi.inn w t hw ht
  obtain ⟨x0, hx0, hx0'⟩ := h.vert
  have hvm : m3.vertices = m.vertices := by rw [h3.eq, h2.eq]
  obtain ⟨L, hL, hL1, hL2, hL3⟩ := hi.verts
  obtain ⟨x, hx⟩ : ∃ x, cur.vertices.get v = some x := by
    rw [hL, hvm]
    obtain ⟨y, hy⟩ := setTets_keep L hx0
    exact ⟨_, hy⟩
  have hund : ∀ c, t1.undirEdge c = t.undirEdge c := by intro c; simp only [Tet.undirEdge, hF.edges]
  have hvert : t1.vertices = t.vertices := by rw [hF.vertices, if_neg hS]
  have hrot : ∀ c, (c = w.edge ∨ c = _root_.Tet.nfe w.edge ∨ c = _root_.Tet.pfe w.edge) ↔ fid ⟨w.tet, c⟩ = fid w := by
    intro c
    rw [← sameTri_iff]
    simp only [SameTri, Walker.nfe, Walker.pfe]
    constructor
    · rintro (rfl | rfl | rfl) <;> simp
    · rintro (e | e | e) <;> have := congrArg Walker.edge e <;> simp_all
  obtain ⟨cur', s1, s2, s3, s4, s5, s6, s7, s8, s9⟩ := fiSetup_step v cur (w := nw A w) ht1 (by
    intro c hc
    obtain ⟨ue, -, h5⟩ := h.m3_edge h2 h3 (w := ⟨w.tet, c⟩) (hw.congr ((hrot c).1 hc)) ht
    obtain ⟨b, bw, h6, -⟩ := hi.edges _ _ h5
    rw [hund]
    exact ⟨_, h6⟩) hx
  have s7 : ∀ j, cur'.tets.get j = if j = A (fid w) then some (t1.setup v (face w.edge)) else cur.tets.get j := s7
  refine ⟨cur', s1, ⟨?_, s3 hi.twf, s4 hi.ewf, s5.trans hi.tsize, s6.trans hi.esize, ?_, ?_, ?_, ?_, ?_⟩⟩
  · rw [s2]; rw [hi.eq]
  · intro k hk
    rw [s7, if_neg (hk w hw), hi.out k hk]
  · intro w' t' hw' ht'
    by_cases hf : fid w' = fid w
    · have e1 : w'.tet = w.tet := congrArg Prod.fst hf
      rw [e1, ht] at ht'
      cases ht'
      rw [hf]
      refine ⟨t1.setup v (face w.edge), by rw [s7, if_pos rfl], ⟨?_, hF.edges, hF.value, hF.opp, ?_, hF.links⟩⟩
      · rw [if_pos List.mem_cons_self]
        show Function.update t1.vertices _ v = _
        rw [hvert]; rfl
      · rw [if_pos List.mem_cons_self]
        show (TFlags.mk _ _ _ _ _ _ _) = _
        rw [hF.flags, if_neg hS]
        rfl
    · obtain ⟨t2, h5, h6⟩ := hi.inn w' t' hw' ht'
      refine ⟨t2, by rw [s7, if_neg (fun e => hf (h3.inj w' w hw' hw e)), h5], ?_⟩
      have hiff : fid w' ∈ fid w :: S ↔ fid w' ∈ S := by simp [hf]
      refine ⟨?_, h6.edges, h6.value, h6.opp, ?_, h6.links⟩
      · rw [if_congr hiff rfl rfl]; exact h6.vertices
      · rw [if_congr hiff rfl rfl]; exact h6.flags
  · intro e ue he
    obtain ⟨b, bw, h5, h6, h7, h8⟩ := hi.edges e ue he
    by_cases hc : t1.triEdge (nw A w).edge e
    · refine ⟨false, bw, ?_, by simp, h7, h8⟩
      rw [s8, h5, Option.map_some, if_pos hc]
    · refine ⟨b, bw, ?_, ?_, h7, h8⟩
      · rw [s8, h5, Option.map_some, if_neg hc]
      · intro hb
        refine ⟨(h6 hb).1, ?_⟩
        intro w' hw' hwe
        rcases List.mem_cons.1 hw' with hf | hf
        · apply hc
          have e1 : w'.tet = w.tet := congrArg Prod.fst hf
          have hr := (hrot w'.edge).2 (by rw [← e1]; exact hf)
          rw [Mesh.undirEdge, e1, ht, Option.map_some, Option.some.injEq] at hwe
          subst hwe
          show _ = t1.undirEdge w.edge ∨ _ = t1.undirEdge (_root_.Tet.nfe w.edge) ∨ _ = t1.undirEdge (_root_.Tet.pfe w.edge)
          rw [hund, hund, hund]
          rcases hr with hr | hr | hr <;> rw [hr] <;> simp
        · exact (h6 hb).2 w' hf hwe
  · intro e he
    rw [s8, hi.eonly e he]; rfl
  · refine ⟨L ++ ((if x.tet.tet = idMax then [(v, (nw A w).perm P3210)] else []) ++
        [(t1.first (nw A w).edge, nw A w), (t1.second (nw A w).edge, (nw A w).nfe), (t1.third (nw A w).edge, (nw A w).pfe)]), ?_, ?_, ?_, ?_⟩
    · rw [s9, hL]
      simp only [setTets, List.foldl_append]
    · have e1 : m.first w = some (t1.first w.edge) := by
        simp only [Mesh.first, ht, Option.map_some, Tet.first, hvert]
      have e2 : m.first w.nfe = some (t1.second w.edge) := by
        simp only [Mesh.first, Walker.nfe, ht, Option.map_some, Tet.first, Tet.second, hvert]
        have : ∀ e, firstIdx (_root_.Tet.nfe e) = secondIdx e := by decide
        rw [this]
      have e3 : m.first w.pfe = some (t1.third w.edge) := by
        simp only [Mesh.first, Walker.pfe, ht, Option.map_some, Tet.first, Tet.third, hvert]
        have : ∀ e, firstIdx (_root_.Tet.pfe e) = thirdIdx e := by decide
        rw [this]
      intro p hp
      rcases List.mem_append.1 hp with hp | hp
      · exact hL1 p hp
      rcases List.mem_append.1 hp with hp | hp
      · split_ifs at hp with hc
        · exact .inl ⟨w, hw, by simpa using hp⟩
        · simp at hp
      · right
        simp only [List.mem_cons, List.not_mem_nil, or_false] at hp
        rcases hp with rfl | rfl | rfl
        · exact ⟨w, hw, e1, rfl⟩
        · exact ⟨w.nfe, hw.congr (fid_nfe w), e2, by simp only [nw, fid_nfe]; rfl⟩
        · exact ⟨w.pfe, hw.congr (fid_pfe w), e3, by simp only [nw, fid_pfe]; rfl⟩
    · intro h' u hh' hf hu
      rcases List.mem_cons.1 hf with hf | hf
      · have e1 : h'.tet = w.tet := congrArg Prod.fst hf
        have hr := (hrot h'.edge).2 (by rw [← e1]; exact hf)
        rw [Mesh.first, e1, ht, Option.map_some, Option.some.injEq] at hu
        have k1 : ∀ e, firstIdx (_root_.Tet.nfe e) = secondIdx e := by decide
        have k2 : ∀ e, firstIdx (_root_.Tet.pfe e) = thirdIdx e := by decide
        rcases hr with hr | hr | hr <;> rw [hr] at hu
        · exact ⟨(t1.first (nw A w).edge, nw A w), by simp, by rw [← hu]; simp only [Tet.first, hvert, nw]⟩
        · exact ⟨(t1.second (nw A w).edge, (nw A w).nfe), by simp, by
            rw [← hu]; simp only [Tet.first, Tet.second, hvert, nw, k1]⟩
        · exact ⟨(t1.third (nw A w).edge, (nw A w).pfe), by simp, by
            rw [← hu]; simp only [Tet.first, Tet.third, hvert, nw, k2]⟩
      · obtain ⟨p, hp, hp'⟩ := hL2 h' u hh' hf hu
        exact ⟨p, List.mem_append_left _ hp, hp'⟩
    · intro _
      by_cases hp : ∃ p ∈ L, p.1 = v
      · obtain ⟨p, hp, hp'⟩ := hp
        exact ⟨p, List.mem_append_left _ hp, hp'⟩
      · refine ⟨(v, (nw A w).perm P3210), ?_, rfl⟩
        have : x.tet.tet = idMax := by
          rcases setTets_get m3.vertices L v with ⟨-, h5⟩ | ⟨y, h5, -⟩
          · rw [← hL, hx, hvm, hx0] at h5
            cases h5
            exact hx0'
          · exact absurd ⟨_, h5, rfl⟩ hp
        simp [this]

/-! ## Linking -/

theorem Tet.unturn_turn (c : Code) (w : Walker) : Tet.turn c (Mesh.unturn c w) = w := by
  have h : ∀ c, div4 c = 0 ∨ div4 c = 1 ∨ div4 c = 2 := by decide
  rcases h c with h | h | h <;> simp [Tet.turn, Mesh.unturn, h, Walker.pfe_nfe, Walker.nfe_pfe]

theorem Tet.adj_setOpp (t : Tet T) (c : Code) (w : Walker) : (t.setOpp (face c) (Mesh.unturn c w)).adj c = w := by
  simp only [Tet.adj, Tet.setOpp, Function.update_self, Tet.unturn_turn]

theorem Tet.adj_setOpp_ne (t : Tet T) {c c' : Code} (h : face c' ≠ face c) (w : Walker) : (t.setOpp (face c) w).adj c' = t.adj c' := by
  simp only [Tet.adj, Tet.setOpp, Function.update_of_ne h]

theorem FTet.mono {S : List (TId × Fin 4)} {D D' : Walker → Prop} {t t1 : Tet T} {x}
    (hF : FTet v A mate S D x t t1) (hd : ∀ y, fid y = x → D' y → D' (mate y) → D y ∧ D (mate y)) :
    FTet v A mate S D' x t t1 :=
  ⟨hF.vertices, hF.edges, hF.value, hF.opp, hF.flags, fun y hy h1 h2 =>
    have h3 := hd y hy h1 h2
    hF.links y hy h3.1 h3.2⟩

/-- The link leaves everything else alone. -/
theorem FTet.link {S : List (TId × Fin 4)} {D D' : Walker → Prop} {t t1 : Tet T} {y : Walker}
    (hF : FTet v A mate S D (fid y) t t1)
    (hd : ∀ x, fid x = fid y → x ≠ y → D' x → D' (mate x) → D x ∧ D (mate x)) :
    FTet v A mate S D' (fid y) t
      (t1.setOpp (face (twin y.edge)) (Mesh.unturn (twin y.edge) (nw A (mate y)).twin)) := by
  have key : ∀ e, face (twin e) ≠ face e := by decide
  refine ⟨hF.vertices, hF.edges, hF.value, ?_, hF.flags, ?_⟩
  · show Function.update t1.opp _ _ (face y.edge) = _
    rw [Function.update_of_ne (key y.edge).symm]
    exact hF.opp
  · intro x hx h1 h2
    by_cases hxy : x = y
    · subst hxy
      exact Tet.adj_setOpp _ _ _
    · obtain ⟨h3, h4⟩ := hd x hx hxy h1 h2
      have k : ∀ e e', (e' = _root_.Tet.nfe e ∨ e' = _root_.Tet.pfe e) → face (twin e') ≠ face (twin e) := by decide
      rw [Tet.adj_setOpp_ne]
      · exact hF.links x hx h3 h4
      · apply k
        rcases (sameTri_iff y x).2 hx with h' | h' | h'
        · exact absurd h' hxy
        · rw [h']; exact .inl rfl
        · rw [h']; exact .inr rfl

theorem FI.link_step (h : FI m v B E) (hmate : IsMate m E mate) (h2 : Dropped m B E m2) (h3 : Dupped m B E A m2 m3)
    {S : List (TId × Fin 4)} {D : Walker → Prop} {cur : Mesh P V T} (hi : FillInv m m3 v E A mate S D cur) {w : Walker}
    (hw : Outer m E w) (hD : ¬ D w) :
    ∃ cur', cur.fiLink (nw A w) = some cur' ∧ FillInv m m3 v E A mate S (fun x => D x ∨ x = w) cur' := by
  obtain ⟨t, ht⟩ := h.get hw
  obtain ⟨t1, ht1, hF⟩ := hi.inn w t hw ht
  obtain ⟨ue0, -, he0⟩ := h.m3_edge h2 h3 hw ht
  obtain ⟨bd, bw, he1, hb1, hb2, hb3⟩ := hi.edges _ _ he0
  have hund : m.undirEdge w = some (t.undirEdge w.edge) := by simp [Mesh.undirEdge, ht]
  have hundc : cur.undirEdge (nw A w) = some (t.undirEdge w.edge) := by
    simp only [Mesh.undirEdge, nw, ht1, Option.map_some, Tet.undirEdge, hF.edges]
  obtain ⟨mo, -, mm⟩ := hmate w hw
  have hne : fid (mate w) ≠ fid w := h.mate_ne hmate hw
  have hne' : mate w ≠ w := fun e => hne (by rw [e])
  have hid : ∀ x, Outer m E x → (m.undirEdge x = some (t.undirEdge w.edge) ↔ x = w ∨ x = mate w) := by
    intro x hx
    rw [← hund]
    exact h.eid_iff hmate hw hx
  have hmx : ∀ x, Outer m E x → mate x = w → x = mate w := fun x hx e => by rw [← e, (hmate x hx).2.2]
  have hAne : A (fid (mate w)) ≠ A (fid w) := fun e => hne (h3.inj _ _ mo hw e)
  by_cases hDm : D (mate w)
  · have hbw : bw = nw A (mate w) := hb2 (mate w) mo ((hid _ mo).2 (.inr rfl)) hDm (by rw [mm]; exact hD)
    obtain ⟨tm, htm⟩ := h.get mo
    obtain ⟨t2, ht2, hF2⟩ := hi.inn (mate w) tm mo htm
    have hlive : A (fid (mate w)) ≠ idMax := by
      intro e
      rw [e, hi.twf.get_max] at ht2
      cases ht2
    obtain ⟨m1, a1, a2, a3⟩ := cur.modTet_step
      (·.setOpp (face (twin w.edge)) (Mesh.unturn (twin w.edge) (nw A (mate w)).twin)) ht1
    have g2 : m1.tets.get (A (fid (mate w))) = some t2 := by rw [a3, if_neg hAne, ht2]
    obtain ⟨m2', b1, b2, b3⟩ := m1.modTet_step
      (·.setOpp (face (twin (mate w).edge)) (Mesh.unturn (twin (mate w).edge) (nw A w).twin)) g2
    have te := a2.trans b2
    have ge : m2'.edges = cur.edges := by rw [te.eq]
    obtain ⟨m3', c1, c2, c3⟩ := m2'.modEdge_step (fun ue => { ue with boundaryWalker := ⟨idMax, ue.boundaryWalker.edge⟩ })
      (e := t.undirEdge w.edge) (by rw [ge]; exact he1)
    have gt : m3'.tets = m2'.tets := by rw [c2.eq]
    have hget : ∀ k, m3'.tets.get k = if k = A (fid (mate w)) then
        some (t2.setOpp (face (twin (mate w).edge)) (Mesh.unturn (twin (mate w).edge) (nw A w).twin)) else
        if k = A (fid w) then some (t1.setOpp (face (twin w.edge)) (Mesh.unturn (twin w.edge) (nw A (mate w)).twin)) else
        cur.tets.get k := by
      intro k; rw [gt, b3, a3]
    refine ⟨m3', ?_, ⟨?_, ?_, ?_, ?_, ?_, ?_, ?_, ?_, ?_, ?_⟩⟩
    · simp only [Mesh.fiLink, hundc, Option.bind_eq_bind, Option.bind_some, he1, hbw]
      rw [if_pos (by exact hlive)]
      have a1' : cur.modTet (nw A w).twin.tet (fun x => x.setOpp (face (nw A w).twin.edge)
          (Mesh.unturn (nw A w).twin.edge (nw A (mate w)).twin)) = some m1 := a1
      rw [a1', Option.bind_some]
      have b1' : m1.modTet (nw A (mate w)).twin.tet (fun x => x.setOpp (face (nw A (mate w)).twin.edge)
          (Mesh.unturn (nw A (mate w)).twin.edge (nw A w).twin)) = some m2' := b1
      rw [b1', Option.bind_some, c1]
    · rw [c2.eq, te.eq]; rw [hi.eq]
    · rw [gt]; exact te.wf hi.twf
    · exact c2.wf (by rw [ge]; exact hi.ewf)
    · rw [gt, te.size, hi.tsize]
    · rw [c2.size, ge, hi.esize]
    · intro k hk
      rw [hget, if_neg (hk _ mo), if_neg (hk _ hw), hi.out k hk]
    · intro w' t' hw' ht'
      by_cases f1 : fid w' = fid (mate w)
      · have e1 : w'.tet = (mate w).tet := congrArg Prod.fst f1
        rw [e1, htm] at ht'
        cases ht'
        rw [f1]
        refine ⟨_, by rw [hget, if_pos rfl], ?_⟩
        have := hF2.link (D' := fun x => D x ∨ x = w) (by
          intro x hx hxy d1 d2
          have ho : Outer m E x := mo.congr hx
          refine ⟨d1.resolve_right fun e => hne ?_, d2.resolve_right fun e => hxy (hmx x ho e)⟩
          rw [← hx, e])
        rw [mm] at this
        exact this
      · by_cases f2 : fid w' = fid w
        · have e1 : w'.tet = w.tet := congrArg Prod.fst f2
          rw [e1, ht] at ht'
          cases ht'
          rw [f2]
          refine ⟨_, by rw [hget, if_neg hAne.symm, if_pos rfl], ?_⟩
          refine hF.link ?_
          intro x hx hxy d1 d2
          have ho : Outer m E x := hw.congr hx
          refine ⟨d1.resolve_right hxy, d2.resolve_right fun e => hne ?_⟩
          rw [← hmx x ho e, hx]
        · obtain ⟨t3, h5, h6⟩ := hi.inn w' t' hw' ht'
          refine ⟨t3, ?_, h6.mono ?_⟩
          · rw [hget, if_neg fun e => f1 (h3.inj _ _ hw' mo e), if_neg fun e => f2 (h3.inj _ _ hw' hw e), h5]
          · intro x hx d1 d2
            have ho : Outer m E x := hw'.congr hx
            refine ⟨d1.resolve_right fun e => f2 ?_, d2.resolve_right fun e => f1 ?_⟩
            · rw [← hx, e]
            · rw [← hx, hmx x ho e]
    · intro e ue he
      by_cases hee : e = t.undirEdge w.edge
      · subst hee
        rw [he0] at he
        cases he
        refine ⟨bd, ⟨idMax, bw.edge⟩, ?_, hb1, ?_, fun _ => rfl⟩
        · rw [c3, if_pos rfl]
        · intro x hx hxe _ hnd
          exfalso
          rcases (hid x hx).1 hxe with rfl | rfl
          · exact hnd (.inl hDm)
          · exact hnd (.inr mm)
      · obtain ⟨b, bw', h5, h6, h7, h8⟩ := hi.edges e ue he
        have hx1 : ∀ x, Outer m E x → m.undirEdge x = some e → x ≠ w := by
          rintro x hx hxe rfl
          rw [hund] at hxe
          exact hee (Option.some.inj hxe).symm
        have hx2 : ∀ x, Outer m E x → m.undirEdge x = some e → mate x ≠ w := by
          rintro x hx hxe hmw
          rw [hmx x hx hmw, (hid _ mo).2 (.inr rfl)] at hxe
          exact hee (Option.some.inj hxe).symm
        refine ⟨b, bw', by rw [c3, if_neg hee, ge, h5], h6, ?_, ?_⟩
        · intro x hx hxe d1 d2
          exact h7 x hx hxe (d1.resolve_right (hx1 x hx hxe)) fun d => d2 (.inl d)
        · intro hall
          refine h8 fun x hx hxe => ?_
          have := hall x hx hxe
          simpa [hx1 x hx hxe, hx2 x hx hxe] using this
    · intro e he
      rw [c3, if_neg, ge]
      · exact hi.eonly e he
      · rintro rfl
        rw [he0] at he; cases he
    · have : m3'.vertices = cur.vertices := by rw [c2.eq, te.eq]
      rw [this]
      exact hi.verts
  · have hbw : bw.tet = idMax := by
      refine hb3 fun x hx hxe => ?_
      rcases (hid x hx).1 hxe with rfl | rfl
      · simp [hD, hDm]
      · rw [mm]; simp [hD, hDm]
    obtain ⟨m3', c1, c2, c3⟩ := cur.modEdge_step (fun ue => { ue with boundaryWalker := nw A w }) he1
    have gt : m3'.tets = cur.tets := by rw [c2.eq]
    refine ⟨m3', ?_, ⟨?_, ?_, c2.wf hi.ewf, ?_, c2.size.trans hi.esize, ?_, ?_, ?_, ?_, ?_⟩⟩
    · simp only [Mesh.fiLink, hundc, Option.bind_eq_bind, Option.bind_some, he1]
      rw [if_neg (by simpa using hbw), c1]
    · rw [c2.eq]; rw [hi.eq]
    · rw [gt]; exact hi.twf
    · rw [gt, hi.tsize]
    · intro k hk; rw [gt]; exact hi.out k hk
    · intro w' t' hw' ht'
      obtain ⟨t3, h5, h6⟩ := hi.inn w' t' hw' ht'
      refine ⟨t3, by rw [gt, h5], h6.mono ?_⟩
      intro x hx d1 d2
      have ho : Outer m E x := hw'.congr hx
      refine ⟨d1.resolve_right fun e => ?_, d2.resolve_right fun e => ?_⟩
      · rcases d2 with d2 | d2
        · rw [e] at d2; exact hDm d2
        · rw [e] at d2; exact hne' d2
      · have := hmx x ho e
        rcases d1 with d1 | d1
        · rw [this] at d1; exact hDm d1
        · rw [this] at d1; exact hne' d1
    · intro e ue he
      by_cases hee : e = t.undirEdge w.edge
      · subst hee
        rw [he0] at he
        cases he
        refine ⟨bd, nw A w, ?_, hb1, ?_, fun hall => ?_⟩
        · rw [c3, if_pos rfl]
        · intro x hx hxe d1 d2
          rcases (hid x hx).1 hxe with rfl | rfl
          · rfl
          · exact absurd (.inr mm) d2
        · have := (hall w hw hund).1 (.inr rfl)
          rcases this with d | d
          · exact absurd d hDm
          · exact absurd d hne'
      · obtain ⟨b, bw', h5, h6, h7, h8⟩ := hi.edges e ue he
        have hx1 : ∀ x, Outer m E x → m.undirEdge x = some e → x ≠ w := by
          rintro x hx hxe rfl
          rw [hund] at hxe
          exact hee (Option.some.inj hxe).symm
        have hx2 : ∀ x, Outer m E x → m.undirEdge x = some e → mate x ≠ w := by
          rintro x hx hxe hmw
          rw [hmx x hx hmw, (hid _ mo).2 (.inr rfl)] at hxe
          exact hee (Option.some.inj hxe).symm
        refine ⟨b, bw', by rw [c3, if_neg hee, h5], h6, ?_, ?_⟩
        · intro x hx hxe d1 d2
          exact h7 x hx hxe (d1.resolve_right (hx1 x hx hxe)) fun d => d2 (.inl d)
        · intro hall
          refine h8 fun x hx hxe => ?_
          have := hall x hx hxe
          simpa [hx1 x hx hxe, hx2 x hx hxe] using this
    · intro e he
      rw [c3, if_neg]
      · exact hi.eonly e he
      · rintro rfl
        rw [he0] at he; cases he
    · have : m3'.vertices = cur.vertices := by rw [c2.eq]
      rw [this]
      exact hi.verts

theorem FillInv.congr {S : List (TId × Fin 4)} {D D' : Walker → Prop} {cur : Mesh P V T}
    (hi : FillInv m m3 v E A mate S D cur) (hD : ∀ x, D' x ↔ D x) : FillInv m m3 v E A mate S D' cur := by
  have : D' = D := funext fun x => propext (hD x)
  rw [this]; exact hi

theorem FI.fill_step (h : FI m v B E) (hmate : IsMate m E mate) (h2 : Dropped m B E m2) (h3 : Dupped m B E A m2 m3)
    {S : List (TId × Fin 4)} {cur : Mesh P V T} (hi : FillInv m m3 v E A mate S (fun x => fid x ∈ S) cur) {w : Walker}
    (hw : Outer m E w) (hS : fid w ∉ S) :
    ∃ cur', cur.fiFill v (nw A w) = some cur' ∧
      FillInv m m3 v E A mate (fid w :: S) (fun x => fid x ∈ fid w :: S) cur' := by
  have n1 : w.nfe ≠ w := by
    intro e
    have k : ∀ c, _root_.Tet.nfe c ≠ c := by decide
    exact k w.edge (congrArg Walker.edge e)
  have n2 : w.pfe ≠ w := by
    intro e
    have k : ∀ c, _root_.Tet.pfe c ≠ c := by decide
    exact k w.edge (congrArg Walker.edge e)
  have n3 : w.pfe ≠ w.nfe := by
    intro e
    have k : ∀ c, _root_.Tet.pfe c ≠ _root_.Tet.nfe c := by decide
    exact k w.edge (congrArg Walker.edge e)
  obtain ⟨c1, a1, a2⟩ := h.setup_step h2 h3 hi hw hS
  obtain ⟨c2, b1, b2⟩ := h.link_step hmate h2 h3 a2 hw hS
  obtain ⟨c3, d1, d2⟩ := h.link_step hmate h2 h3 b2 (w := w.nfe) (hw.congr (fid_nfe w)) (by
    rw [fid_nfe]; simp [hS, n1])
  obtain ⟨c4, e1, e2⟩ := h.link_step hmate h2 h3 d2 (w := w.pfe) (hw.congr (fid_pfe w)) (by
    rw [fid_pfe]; simp [hS, n2, n3])
  have q1 : nw A w.nfe = (nw A w).nfe := by simp only [nw, fid_nfe]; rfl
  have q2 : nw A w.pfe = (nw A w).pfe := by simp only [nw, fid_pfe]; rfl
  rw [q1] at d1
  rw [q2] at e1
  refine ⟨c4, ?_, e2.congr fun x => ?_⟩
  · simp only [Mesh.fiFill, a1, Option.bind_eq_bind, Option.bind_some, List.foldlM_cons, List.foldlM_nil, b1, d1, e1]
    rfl
  · rw [List.mem_cons, ← sameTri_iff, SameTri]
    tauto

theorem FI.fills (h : FI m v B E) (hmate : IsMate m E mate) (h2 : Dropped m B E m2) (h3 : Dupped m B E A m2 m3)
    (rest : List Walker) : ∀ {S : List (TId × Fin 4)} {cur : Mesh P V T},
    FillInv m m3 v E A mate S (fun x => fid x ∈ S) cur → (∀ w ∈ rest, Outer m E w) → (rest.map fid).Nodup →
    (∀ w ∈ rest, fid w ∉ S) → ∃ cur' S', (rest.map (nw A)).foldlM (Mesh.fiFill v) cur = some cur' ∧
      FillInv m m3 v E A mate S' (fun x => fid x ∈ S') cur' ∧ ∀ x, x ∈ S' ↔ x ∈ S ∨ x ∈ rest.map fid := by
  induction rest with
  | nil =>
    intro S cur hi _ _ _
    exact ⟨cur, S, rfl, hi, by simp⟩
  | cons w rest ih =>
    intro S cur hi ho hn hS
    rw [List.map_cons, List.nodup_cons] at hn
    obtain ⟨c1, a1, a2⟩ := h.fill_step hmate h2 h3 hi (ho w (by simp)) (hS w (by simp))
    obtain ⟨c2, S', b1, b2, b3⟩ := ih a2 (fun x hx => ho x (by simp [hx])) hn.2 (by
      intro x hx hc
      rcases List.mem_cons.1 hc with hc | hc
      · exact hn.1 (hc ▸ List.mem_map_of_mem hx)
      · exact hS x (by simp [hx]) hc)
    refine ⟨c2, S', ?_, b2, fun x => ?_⟩
    · rw [List.map_cons, List.foldlM_cons, a1]
      exact b1
    · rw [b3, List.map_cons, List.mem_cons, List.mem_cons]
      tauto

/-- After filling. -/
structure Filled (m m3 : Mesh P V T) (v : VId) (E : List TId) (A : TId × Fin 4 → TId) (mate : Walker → Walker)
    (m4 : Mesh P V T) : Prop where
  eq : m4 = { m3 with tets := m4.tets, edges := m4.edges, vertices := m4.vertices }
  twf : m4.tets.WF
  ewf : m4.edges.WF
  esize : m4.edges.size = m3.edges.size
  out : ∀ k, (∀ w, Outer m E w → k ≠ A (fid w)) → m4.tets.get k = m3.tets.get k
  inn : ∀ w t, Outer m E w → m.tets.get w.tet = some t → ∃ t', m4.tets.get (A (fid w)) = some t' ∧
    t'.vertices = Function.update t.vertices (face w.edge) v ∧ t'.edges = t.edges ∧ t'.value = t.value ∧
    t'.opp (face w.edge) = t.opp (face w.edge) ∧ t'.flags = (t.setup v (face w.edge)).flags ∧
    ∀ h, fid h = fid w → t'.adj (twin h.edge) = (nw A (mate h)).twin
  edges : ∀ e ue, m3.edges.get e = some ue →
    ∃ bw, m4.edges.get e = some { ue with boundary := false, boundaryWalker := bw } ∧ bw.tet = idMax
  eonly : ∀ e, m3.edges.get e = none → m4.edges.get e = none
  verts : ∃ L, m4.vertices = setTets m.vertices L ∧
    (∀ p ∈ L, (∃ w, Outer m E w ∧ p = (v, (nw A w).perm P3210)) ∨ ∃ h, Outer m E h ∧ m.first h = some p.1 ∧ p.2 = nw A h) ∧
    (∀ h u, Outer m E h → m.first h = some u → ∃ p ∈ L, p.1 = u) ∧ ((∃ w, Outer m E w) → ∃ p ∈ L, p.1 = v)

theorem FI.filled (h : FI m v B E) (hmate : IsMate m E mate) (h2 : Dropped m B E m2) (h3 : Dupped m B E A m2 m3) :
    ∃ m4, (B.map (nw A)).foldlM (Mesh.fiFill v) m3 = some m4 ∧ Filled m m3 v E A mate m4 := by
  obtain ⟨m4, S, h4, h5, h6⟩ := h.fills hmate h2 h3 B (h.fillInv_nil h2 h3 |>.congr (D' := fun x => fid x ∈ []) (by simp))
    (fun w hw => h.outer_mem hw) h.fids (by simp)
  have hS : ∀ w, Outer m E w → fid w ∈ S := fun w hw => (h6 _).2 (.inr ((h.outer_iff w).1 hw))
  refine ⟨m4, h4, h5.eq, h5.twf, h5.ewf, h5.esize, h5.out, ?_, ?_, h5.eonly, ?_⟩
  · intro w t hw ht
    obtain ⟨t', h7, h8⟩ := h5.inn w t hw ht
    refine ⟨t', h7, ?_, h8.edges, h8.value, h8.opp, ?_, ?_⟩
    · rw [h8.vertices, if_pos (hS w hw)]; rfl
    · rw [h8.flags, if_pos (hS w hw)]; rfl
    · intro x hx
      have ho := hw.congr hx
      exact h8.links x hx (hS x ho) (hS _ (hmate x ho).1)
  · intro e ue he
    obtain ⟨b, bw, h7, h8, -, h9⟩ := h5.edges e ue he
    have hb : b = false := by
      cases b with
      | false => rfl
      | true =>
        exfalso
        obtain ⟨h10, h11⟩ := h8 rfl
        rw [show m3.edges = m2.edges by rw [h3.eq]] at he
        by_cases ht : Touched m B e
        · obtain ⟨b, hb, t, h12, h13⟩ := ht
          have ho := h.outer_mem hb
          have hk : ∀ x : Walker, fid x = fid b → t.undirEdge x.edge = e → False := by
            intro x hx hxe
            have e1 : x.tet = b.tet := congrArg Prod.fst hx
            refine h11 x (hx ▸ hS b ho) ?_
            rw [Mesh.undirEdge, e1, h12, Option.map_some, hxe]
          rcases h13 with h13 | h13 | h13
          · exact hk b rfl h13.symm
          · exact hk b.nfe (fid_nfe b) h13.symm
          · exact hk b.pfe (fid_pfe b) h13.symm
        · by_cases hk : ∀ k t i, k ∈ E → m.tets.get k = some t → t.edges i ≠ e
          · rw [h2.kept e ht hk] at he
            rw [(h.tidy.edges e ue he).1] at h10
            cases h10
          · push Not at hk
            obtain ⟨k, t, i, h12, h13, h14⟩ := hk
            rw [h2.gone e k t i ht h12 h13 h14] at he
            cases he
    subst hb
    exact ⟨bw, h7, h9 fun x hx _ => ⟨fun _ => hS _ (hmate x hx).1, fun _ => hS _ hx⟩⟩
  · obtain ⟨L, h7, h8, h9, h10⟩ := h5.verts
    refine ⟨L, ?_, h8, fun x u hx hu => h9 x u hx (hS x hx) hu, ?_⟩
    · rw [h7]
      rw [h3.eq, h2.eq]
    · rintro ⟨w, hw⟩
      exact h10 (List.ne_nil_of_mem (hS w hw))

end
end Tet
