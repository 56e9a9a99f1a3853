import Verif.Model.New
import Verif.Proofs.Flip14

/-!
# The first five tets
-/

namespace Tet
variable {P V T : Type}

namespace IdMap

theorem extendValues_push {α : Type} (vs : List α) : ∀ sl : List (Option α),
    sl.length + vs.length ≤ idMax → (⟨⟨sl, sl.length⟩, []⟩ : IdMap α).extendValues vs =
      some (⟨⟨sl ++ vs.map some, sl.length + vs.length⟩, []⟩, List.range' sl.length vs.length) := by
  induction vs with
  | nil => intro sl _; simp [extendValues]
  | cons v vs ih =>
    intro sl h
    simp only [List.length_cons] at h
    have h2 : sl.length < idMax := by omega
    have h1 : (⟨⟨sl, sl.length⟩, []⟩ : IdMap α).insert v =
        some (⟨⟨sl ++ [some v], (sl ++ [some v]).length⟩, []⟩, sl.length) := by
      have h3 : sl.length % 2 ^ 32 = sl.length := Nat.mod_eq_of_lt (by simp only [idMax] at h2; omega)
      simp only [insert, StableVec.nextPushIndex, insertRaw, StableVec.push, List.getLast?_nil, h3]
      rw [if_neg (by omega)]
      simp
    unfold extendValues
    rw [h1]
    simp only
    rw [ih (sl ++ [some v]) (by simp; omega)]
    simp [List.range'_succ]
    omega

theorem extendValues_empty {α : Type} (vs : List α) (h : vs.length ≤ idMax) :
    (empty : IdMap α).extendValues vs =
      some (⟨⟨vs.map some, vs.length⟩, []⟩, List.range vs.length) := by
  have := extendValues_push vs [] (by simpa using h)
  simp only [List.length_nil, Nat.zero_add, List.nil_append, ← List.range_eq_range'] at this
  exact this

theorem ext_get {α : Type} {a b : IdMap α} (h1 : a.free = b.free) (h2 : a.map.cap = b.map.cap)
    (h3 : a.map.slots.length = b.map.slots.length) (h4 : ∀ k, a.get k = b.get k) : a = b := by
  obtain ⟨⟨sa, ca⟩, fa⟩ := a
  obtain ⟨⟨sb, cb⟩, fb⟩ := b
  simp only at h1 h2 h3
  subst h1 h2
  have : sa = sb := by
    apply List.ext_getElem h3
    intro i hi hj
    have := h4 i
    simpa [get, StableVec.get, List.getElem?_eq_getElem hi, List.getElem?_eq_getElem hj] using this
  rw [this]

end IdMap

/-- The list of values is the map. -/
theorem IdMap.get_ofList {α : Type} (vs : List α) (c : Nat) (k : Nat) :
    (⟨⟨vs.map some, c⟩, []⟩ : IdMap α).get k = vs[k]? := by
  simp only [get, StableVec.get, List.getElem?_map]
  cases vs[k]? <;> rfl

theorem IdMap.wf_ofList {α : Type} (vs : List α) (h : vs.length ≤ idMax) :
    (⟨⟨vs.map some, vs.length⟩, []⟩ : IdMap α).WF := by
  refine ⟨by simp, ?_, by simp, by simpa using h⟩
  intro k
  rw [IdMap.get_ofList]
  simp

theorem finRange_get {α : Type} {n : Nat} (f : Fin n → α) (k : Nat) :
    ((List.finRange n).map f)[k]? = if h : k < n then some (f ⟨k, h⟩) else none := by
  split_ifs with h
  · simp [h]
  · simp [Nat.le_of_not_lt h]

/-! ### The checks of the tables -/

def newStep (x : Fin 5 × Code) : Fin 5 × Code :=
  ((newOpps x.1 (face (twin x.2))).1, turnCode (twin x.2) (newOpps x.1 (face (twin x.2))).2)

theorem new_glue : ∀ j d,
    (newOpps (newOpps j (face d)).1 (face (turnCode d (newOpps j (face d)).2))).1 = j ∧
    turnCode (turnCode d (newOpps j (face d)).2)
      (newOpps (newOpps j (face d)).1 (face (turnCode d (newOpps j (face d)).2))).2 = d ∧
    ptri (newVertices (newOpps j (face d)).1) (turnCode d (newOpps j (face d)).2) =
      ((ptri (newVertices j) d).2.1, (ptri (newVertices j) d).1, (ptri (newVertices j) d).2.2) := by
  decide

theorem new_inj : ∀ j, Function.Injective (newVertices j) := by decide

theorem new_tin : ∀ j d j' d', ptri (newVertices j') d' = ptri (newVertices j) d → j' = j ∧ d' = d := by
  decide

theorem new_rin : ∀ j d j' d', pedge (newVertices j') d' = pedge (newVertices j) d →
    (j, d) = (j', d') ∨ newStep (j, d) = (j', d') ∨ newStep (newStep (j, d)) = (j', d') := by
  decide

theorem new_edges : ∀ j s, newEdges (newTetEdges j s) = pedge (newVertices j) (toUndirEdge s) ∨
    newEdges (newTetEdges j s) = (pedge (newVertices j) (toUndirEdge s)).swap := by
  decide

theorem new_edges_inj : ∀ i i', newEdges i = newEdges i' ∨ newEdges i = (newEdges i').swap → i = i' := by
  decide

theorem new_edges_used : ∀ i, ∃ j d, newTetEdges j (undirIdx d) = i := by decide

/-- The mesh made by `with_ids`. -/
structure IsNew (m : Mesh P V T) (vi : Fin 5 → VId) (dt : T) : Prop where
  ghost : vi 4 = GHOST
  inj : Function.Injective vi
  tets : m.tets = ⟨⟨((List.finRange 5).map fun i => newTet vi (fun k => k.val) dt i).map some, 5⟩, []⟩
  edges : m.edges = ⟨⟨((List.finRange 10).map fun i =>
    UEdge.new (vi (newEdges i).1, vi (newEdges i).2)).map some, 10⟩, []⟩
  wf : m.vertices.WF
  attached : ∀ i : Fin 4, ∃ x, m.vertices.get (vi i.castSucc) = some x ∧
    x.tet = ⟨0, (![3, 2, 1, 0] : Fin 4 → Code) i⟩
  others : ∀ v x, m.vertices.get v = some x → x.tet.tet = idMax ∨ ∃ i : Fin 4, v = vi i.castSucc
  track : m.trackTriMap = false

namespace IsNew
variable {m : Mesh P V T} {vi : Fin 5 → VId} {dt : T}

theorem getT (h : IsNew m vi dt) (k : Nat) : m.tets.get k =
    if hk : k < 5 then some (newTet vi (fun k => k.val) dt ⟨k, hk⟩) else none := by
  rw [h.tets, IdMap.get_ofList, finRange_get]

theorem getE (h : IsNew m vi dt) (k : Nat) : m.edges.get k =
    if hk : k < 10 then some (UEdge.new (vi (newEdges ⟨k, hk⟩).1, vi (newEdges ⟨k, hk⟩).2)) else none := by
  rw [h.edges, IdMap.get_ofList, finRange_get]

theorem getN (h : IsNew m vi dt) (j : Fin 5) :
    m.tets.get j.val = some (newTet vi (fun k => k.val) dt j) := by
  rw [h.getT, dif_pos j.2]

theorem ofT (h : IsNew m vi dt) {k t} (ht : m.tets.get k = some t) :
    ∃ j : Fin 5, k = j.val ∧ t = newTet vi (fun k => k.val) dt j := by
  rw [h.getT] at ht
  split_ifs at ht with hk
  cases ht
  exact ⟨⟨k, hk⟩, rfl, rfl⟩

theorem triN (vi : Fin 5 → VId) (ei) (j d) : (newTet vi ei dt j).tri d = map3 vi (ptri (newVertices j) d) := by
  rw [Tet.tri_eq]; rfl

theorem edgeN (vi : Fin 5 → VId) (ei) (j d) :
    (newTet vi ei dt j).edge d = map2 vi (pedge (newVertices j) d) := by
  rw [Tet.edge_eq]; rfl

theorem adjN (vi : Fin 5 → VId) (ei) (j d) : (newTet vi ei dt j).adj d =
    ⟨(newOpps j (face d)).1.val, turnCode d (newOpps j (face d)).2⟩ := by
  rw [Tet.adj, turn_eq]; rfl

theorem consistentT (h : IsNew m vi dt) : ConsistentT m := by
  have first4 : ∀ i : Fin 4, (newTet vi (fun k => k.val) dt 0).first ((![3, 2, 1, 0] : Fin 4 → Code) i) =
      vi i.castSucc := by
    intro i
    rcases fin4 i with rfl | rfl | rfl | rfl <;> rfl
  have rstep : ∀ x : Fin 5 × Code, RingT m.tets.get ⟨x.1.val, x.2⟩ ⟨(newStep x).1.val, (newStep x).2⟩ := by
    intro x
    have := RingT.step (RingT.refl (M := m.tets.get) ⟨x.1.val, x.2⟩) (h.getN x.1)
    rw [adjN] at this
    exact this
  refine ⟨⟨h.wf, ?_, ?_⟩, ?_, ?_, ?_, ?_, ?_, ?_, ?_, ?_, ?_, ?_, ?_, ?_⟩
  · rw [h.edges]
    exact IdMap.wf_ofList ((List.finRange 10).map fun i =>
      UEdge.new (vi (newEdges i).1, vi (newEdges i).2)) (by simp [idMax])
  · rw [h.tets]
    exact IdMap.wf_ofList ((List.finRange 5).map fun i => newTet vi (fun k => k.val) dt i)
      (by simp [idMax])
  · intro k t e ht
    obtain ⟨j, rfl, rfl⟩ := h.ofT ht
    obtain ⟨g1, g2, g3⟩ := new_glue j e
    rw [adjN]
    refine ⟨_, h.getN _, ?_, ?_⟩
    · rw [adjN]
      simp only [g1, g2]
    · rw [triN]
      have h2 := triN (dt := dt) vi (fun k => k.val) j e
      simp only [Tet.tri, map3, Prod.mk.injEq] at h2
      simp only [g3, map3, h2]
  · intro k t ht
    obtain ⟨j, rfl, rfl⟩ := h.ofT ht
    exact h.inj.comp (new_inj j)
  · intro v x hx
    rcases h.others v x hx with h1 | ⟨i, rfl⟩
    · exact .inl h1
    · right
      obtain ⟨x', h1, h2⟩ := h.attached i
      rw [hx] at h1
      cases h1
      rw [h2]
      exact ⟨_, h.getN 0, first4 i⟩
  · intro k t i ht
    obtain ⟨j, rfl, rfl⟩ := h.ofT ht
    show vi (newVertices j i) = _ ∨ _
    rcases Fin.eq_castSucc_or_eq_last (newVertices j i) with ⟨a, ha⟩ | ha
    · right
      obtain ⟨x, h1, h2⟩ := h.attached a
      refine ⟨x, newTet vi (fun k => k.val) dt 0, ?_, ?_, ?_⟩
      · show m.vertices.get (vi (newVertices j i)) = _
        rw [ha, h1]
      · rw [h2]; exact h.getN 0
      · rw [h2]
        show _ = vi (newVertices j i)
        rw [ha]
        exact first4 a
    · left
      rw [ha]; exact h.ghost
  · intro k t e ht
    obtain ⟨j, rfl, rfl⟩ := h.ofT ht
    rw [edgeN]
    refine slots_enough (E := m.edges.get) (newTet vi (fun k => k.val) dt) vi newVertices ?_ j e
    intro j s
    refine ⟨_, (h.getE _).trans (dif_pos (newTetEdges j s).2), ?_⟩
    show sorted2 (map2 vi (newEdges (newTetEdges j s))) = sorted2 _
    rw [sorted2_eq_iff]
    have h2 := new_edges j s
    rcases h2 with h2 | h2
    · left; rw [h2]
    · right; rw [h2]; rfl
  · intro e e' ue ue' he he' hv
    rw [h.getE] at he he'
    split_ifs at he he' with c c'
    cases he; cases he'
    have hv' : sorted2 _ = sorted2 _ := hv
    rw [sorted2_eq_iff] at hv'
    have := new_edges_inj ⟨e', c'⟩ ⟨e, c⟩ (by
      rcases hv' with hv' | hv'
      · exact .inl (map2_inj h.inj hv')
      · exact .inr (map2_inj h.inj hv'))
    exact (congrArg Fin.val this).symm
  · intro e ue he
    rw [h.getE] at he
    split_ifs at he with c
    obtain ⟨j, d, hd⟩ := new_edges_used ⟨e, c⟩
    refine ⟨_, _, d, h.getN j, ?_⟩
    show (newTetEdges j (undirIdx d)).val = e
    rw [hd]
  · intro k t e k' t' e' ht ht' he
    obtain ⟨j, rfl, rfl⟩ := h.ofT ht
    obtain ⟨j', rfl, rfl⟩ := h.ofT ht'
    rw [triN, triN] at he
    obtain ⟨rfl, rfl⟩ := new_tin _ _ _ _ (map3_inj h.inj he)
    exact ⟨rfl, rfl⟩
  · intro k t e k' t' e' ht ht' he
    obtain ⟨j, rfl, rfl⟩ := h.ofT ht
    obtain ⟨j', rfl, rfl⟩ := h.ofT ht'
    rw [edgeN, edgeN] at he
    rcases new_rin _ _ _ _ (map2_inj h.inj he) with h1 | h1 | h1
    · cases h1; exact .refl _
    · have := rstep (j, e)
      rw [h1] at this
      exact this
    · have := (rstep (j, e)).trans (rstep _)
      rw [h1] at this
      exact this
  · intro k t t' e ht ht'
    obtain ⟨j, rfl, rfl⟩ := h.ofT ht
    obtain ⟨j', _, rfl⟩ := h.ofT ht'
    rfl
  · intro ht
    rw [h.track] at ht
    cases ht
  · intro ht
    rw [h.track] at ht
    cases ht

end IsNew

/-- Four entries of a map. -/
theorem update4 {α : Type} (f : Nat → Option α) {k0 k1 k2 k3 : Nat} (x0 x1 x2 x3 : α)
    (h : [k0, k1, k2, k3].Nodup) (v : Nat) :
    [(k0, x0), (k1, x1), (k2, x2), (k3, x3)].foldl
      (fun (t : Nat → Option α) kv => Function.update t kv.1 (some kv.2)) f v =
    if v = k0 then some x0 else if v = k1 then some x1 else if v = k2 then some x2 else
      if v = k3 then some x3 else f v := by
  simp only [List.nodup_cons, List.mem_cons, List.not_mem_nil, or_false, not_or] at h
  obtain ⟨⟨a, b, c⟩, ⟨d, e⟩, f', -⟩ := h
  simp only [List.foldl_cons, List.foldl_nil, Function.update_apply]
  split_ifs <;> first | rfl | (subst_vars; simp_all)

theorem withIds_spec (orient : P → P → P → P → Bool) (m : Mesh P V T) (vs : List (VId × P × V)) (dt : T)
    (hl : vs.length = 4) (hnd : (vs.map Prod.fst).Nodup) (hmax : ∀ x ∈ vs, x.1 < idMax)
    (hwf : m.vertices.WF) (hun : ∀ v x, m.vertices.get v = some x → x.tet.tet = idMax)
    (he : m.edges = IdMap.empty) (ht : m.tets = IdMap.empty) (htr : m.trackTriMap = false) :
    ∃ m' vi, m.withIds orient vs dt = some m' ∧ IsNew m' vi dt ∧
      (∀ v, (∃ x ∈ vs, v = x.1) ↔ ∃ i : Fin 4, v = vi i.castSucc) ∧
      (∀ x ∈ vs, ∃ w, m'.vertices.get x.1 = some (Vertex.new w x.2.1 x.2.2)) ∧
      (∀ v, (∀ x ∈ vs, v ≠ x.1) → m'.vertices.get v = m.vertices.get v) ∧
      (∃ a b c d, vs.insertionSort (fun a b => a.1 ≤ b.1) = [a, b, c, d] ∧
        vi = newVi (!orient a.2.1 b.2.1 c.2.1 d.2.1) a.1 b.1 c.1 d.1) ∧
      m' = { m with vertices := m'.vertices, edges := m'.edges, tets := m'.tets } := by
  have hperm := List.perm_insertionSort (fun a b : VId × P × V => a.1 ≤ b.1) vs
  obtain ⟨a, b, c, d, hs⟩ : ∃ a b c d, vs.insertionSort (fun a b => a.1 ≤ b.1) = [a, b, c, d] := by
    have := hperm.length_eq
    rw [hl] at this
    obtain ⟨a, b, c, d, h⟩ := List.length_eq_four.1 this
    exact ⟨a, b, c, d, h⟩
  rw [hs] at hperm
  have hnd' : [a.1, b.1, c.1, d.1].Nodup := (hperm.map Prod.fst).nodup_iff.2 hnd
  have hmem : ∀ x, x ∈ vs ↔ x = a ∨ x = b ∨ x = c ∨ x = d := by
    intro x
    rw [← hperm.mem_iff]
    simp
  have hm4 : a.1 < idMax ∧ b.1 < idMax ∧ c.1 < idMax ∧ d.1 < idMax :=
    ⟨hmax _ ((hmem a).2 (by simp)), hmax _ ((hmem b).2 (by simp)), hmax _ ((hmem c).2 (by simp)),
      hmax _ ((hmem d).2 (by simp))⟩
  generalize hsw : (!orient a.2.1 b.2.1 c.2.1 d.2.1) = swap
  obtain ⟨vsN, h1, h2, h3, -⟩ := IdMap.extendPairs_spec [
      (a.1, Vertex.new (tw 0 3) a.2.1 a.2.2), (b.1, Vertex.new (tw 0 2) b.2.1 b.2.2),
      (c.1, Vertex.new (tw 0 (if swap then 0 else 1)) c.2.1 c.2.2),
      (d.1, Vertex.new (tw 0 (if swap then 1 else 0)) d.2.1 d.2.2)] hwf (by
        simp only [List.mem_cons, List.not_mem_nil, or_false]
        rintro kv (rfl | rfl | rfl | rfl)
        exacts [hm4.1, hm4.2.1, hm4.2.2.1, hm4.2.2.2])
  have hget : ∀ v, vsN.get v = _ := fun v => (congrFun h3 v).trans (update4 _ _ _ _ _ hnd' v)
  have hvi4 : ∀ (i : Fin 4), newVi swap a.1 b.1 c.1 d.1 i.castSucc = a.1 ∨
      newVi swap a.1 b.1 c.1 d.1 i.castSucc = b.1 ∨ newVi swap a.1 b.1 c.1 d.1 i.castSucc = c.1 ∨
      newVi swap a.1 b.1 c.1 d.1 i.castSucc = d.1 := by
    intro i
    rcases fin4 i with rfl | rfl | rfl | rfl <;> cases swap <;> simp [newVi]
  simp only [List.nodup_cons, List.mem_cons, List.not_mem_nil, or_false, not_or] at hnd'
  obtain ⟨⟨nab, nac, nad⟩, ⟨nbc, nbd⟩, ncd, -⟩ := hnd'
  refine ⟨{ m with
    vertices := vsN
    edges := ⟨⟨((List.finRange 10).map fun i => UEdge.new (newVi swap a.1 b.1 c.1 d.1 (newEdges i).1,
      newVi swap a.1 b.1 c.1 d.1 (newEdges i).2)).map some, 10⟩, []⟩
    tets := ⟨⟨((List.finRange 5).map fun i => newTet (newVi swap a.1 b.1 c.1 d.1)
      (fun k => k.val) dt i).map some, 5⟩, []⟩ }, newVi swap a.1 b.1 c.1 d.1, ?_, ?_, ?_, ?_, ?_, ?_, ?_⟩
  · unfold Mesh.withIds
    rw [hs]
    simp only [hsw]
    refine (bind_step h1 _).trans ?_
    rw [he, ht]
    refine (bind_step (IdMap.extendValues_empty _ (by simp [idMax])) _).trans ?_
    refine (bind_step (IdMap.extendValues_empty _ (by simp [idMax])) _).trans ?_
    congr 1
    have hei : (fun k : Fin 10 => (List.range 10)[k.val]!) = fun k => k.val := by
      funext k
      simp
    simp only [List.length_map, List.length_finRange, hei]
  · refine ⟨rfl, ?_, rfl, rfl, h2, ?_, ?_, htr⟩
    · have g : ∀ {x : Nat}, x < idMax → x ≠ GHOST := fun h e => by rw [e] at h; exact absurd h (lt_irrefl _)
      apply inj5
      cases swap
      · exact ⟨nab, nac, nad, g hm4.1, nbc, nbd, g hm4.2.1, ncd, g hm4.2.2.1, g hm4.2.2.2⟩
      · exact ⟨nab, nad, nac, g hm4.1, nbd, nbc, g hm4.2.1, Ne.symm ncd, g hm4.2.2.2, g hm4.2.2.1⟩
    · intro i
      show ∃ x, vsN.get _ = _ ∧ _
      rcases fin4 i with rfl | rfl | rfl | rfl
      · refine ⟨_, (hget _).trans (if_pos rfl), rfl⟩
      · refine ⟨_, (hget _).trans ((if_neg (Ne.symm nab)).trans (if_pos rfl)), rfl⟩
      · cases swap
        · exact ⟨_, (hget _).trans ((if_neg (Ne.symm nac)).trans ((if_neg (Ne.symm nbc)).trans
            (if_pos rfl))), rfl⟩
        · exact ⟨_, (hget _).trans ((if_neg (Ne.symm nad)).trans ((if_neg (Ne.symm nbd)).trans
            ((if_neg (Ne.symm ncd)).trans (if_pos rfl)))), rfl⟩
      · cases swap
        · exact ⟨_, (hget _).trans ((if_neg (Ne.symm nad)).trans ((if_neg (Ne.symm nbd)).trans
            ((if_neg (Ne.symm ncd)).trans (if_pos rfl)))), rfl⟩
        · exact ⟨_, (hget _).trans ((if_neg (Ne.symm nac)).trans ((if_neg (Ne.symm nbc)).trans
            (if_pos rfl))), rfl⟩
    · intro v x hx
      have hx' := (hget v).symm.trans hx
      by_cases ca : v = a.1
      · exact .inr ⟨0, ca⟩
      by_cases cb : v = b.1
      · exact .inr ⟨1, cb⟩
      by_cases cc : v = c.1
      · cases swap
        · exact .inr ⟨2, cc⟩
        · exact .inr ⟨3, cc⟩
      by_cases cd : v = d.1
      · cases swap
        · exact .inr ⟨3, cd⟩
        · exact .inr ⟨2, cd⟩
      rw [if_neg ca, if_neg cb, if_neg cc, if_neg cd] at hx'
      exact .inl (hun v x hx')
  · intro v
    constructor
    · rintro ⟨x, hx, rfl⟩
      rcases (hmem x).1 hx with rfl | rfl | rfl | rfl
      · exact ⟨0, rfl⟩
      · exact ⟨1, rfl⟩
      · cases swap
        · exact ⟨2, rfl⟩
        · exact ⟨3, rfl⟩
      · cases swap
        · exact ⟨3, rfl⟩
        · exact ⟨2, rfl⟩
    · rintro ⟨i, rfl⟩
      rcases hvi4 i with h | h | h | h
      · exact ⟨a, (hmem a).2 (by simp), h⟩
      · exact ⟨b, (hmem b).2 (by simp), h⟩
      · exact ⟨c, (hmem c).2 (by simp), h⟩
      · exact ⟨d, (hmem d).2 (by simp), h⟩
  · intro x hx
    rcases (hmem x).1 hx with rfl | rfl | rfl | rfl
    · exact ⟨_, (hget _).trans (if_pos rfl)⟩
    · exact ⟨_, (hget _).trans ((if_neg (Ne.symm nab)).trans (if_pos rfl))⟩
    · exact ⟨_, (hget _).trans ((if_neg (Ne.symm nac)).trans ((if_neg (Ne.symm nbc)).trans
            (if_pos rfl)))⟩
    · exact ⟨_, (hget _).trans ((if_neg (Ne.symm nad)).trans ((if_neg (Ne.symm nbd)).trans
            ((if_neg (Ne.symm ncd)).trans (if_pos rfl))))⟩
  · intro v hv
    refine (hget v).trans ?_
    rw [if_neg (hv a ((hmem a).2 (by simp))), if_neg (hv b ((hmem b).2 (by simp))),
      if_neg (hv c ((hmem c).2 (by simp))), if_neg (hv d ((hmem d).2 (by simp)))]
  · exact ⟨a, b, c, d, hs, by rw [hsw]⟩
  · rfl

end Tet
