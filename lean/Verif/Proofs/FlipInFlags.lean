import Verif.Proofs.FlipInEdges

/-!
# Filling a cavity: which edges have been added, and the end
-/

namespace Tet
open Spec
variable {P V T : Type}

def Vertex.setAdded (b : Bool) (x : Vertex P V) : Vertex P V := { x with flags := { x.flags with edgeAdded := b } }

/-- The flags `EDGE_ADDED` are given by `F`. -/
structure FlagInv (m4 : Mesh P V T) (F : VId → Bool) (cur : Mesh P V T) : Prop where
  get : ∀ u, cur.vertices.get u = (m4.vertices.get u).map (Vertex.setAdded (F u))
  wf : cur.vertices.WF
  ghost : cur.ghostFlags = { m4.ghostFlags with edgeAdded := F GHOST }

theorem FlagInv.congr {m4 : Mesh P V T} {F : VId → Bool} {cur cur' : Mesh P V T} (h : FlagInv m4 F cur)
    (h1 : cur'.vertices = cur.vertices) (h2 : cur'.ghostFlags = cur.ghostFlags) : FlagInv m4 F cur' :=
  ⟨by rw [h1]; exact h.get, by rw [h1]; exact h.wf, by rw [h2]; exact h.ghost⟩

theorem FlagInv.read {m4 : Mesh P V T} {F : VId → Bool} {cur : Mesh P V T} (h : FlagInv m4 F cur) {u : VId}
    (hu : u = GHOST ∨ (m4.vertices.get u).isSome) : cur.edgeAddedFlag u = some (F u) := by
  unfold Mesh.edgeAddedFlag
  by_cases hg : u = GHOST
  · rw [if_pos hg, h.ghost, hg]
  · rw [if_neg hg, h.get]
    obtain ⟨x, hx⟩ := Option.isSome_iff_exists.1 (hu.resolve_left hg)
    rw [hx]
    rfl

theorem FlagInv.write {m4 : Mesh P V T} {F : VId → Bool} {cur : Mesh P V T} (h : FlagInv m4 F cur) (b : Bool) {u : VId}
    (hu : u = GHOST ∨ (m4.vertices.get u).isSome) :
    ∃ cur', cur.setEdgeAddedFlag b u = some cur' ∧
      cur' = { cur with vertices := cur'.vertices, ghostFlags := cur'.ghostFlags } ∧
      FlagInv m4 (Function.update F u b) cur' := by
  unfold Mesh.setEdgeAddedFlag
  by_cases hg : u = GHOST
  · rw [if_pos hg]
    refine ⟨_, rfl, rfl, ⟨?_, h.wf, ?_⟩⟩
    · intro j
      by_cases hj : j = u
      · have : cur.vertices.get j = none := by rw [hj, hg]; exact h.wf.get_max
        have h4 := h.get j
        rw [this] at h4
        show cur.vertices.get j = _
        rw [this]
        symm
        rw [Option.map_eq_none_iff]
        exact Option.map_eq_none_iff.1 h4.symm
      · rw [Function.update_of_ne hj]
        exact h.get j
    · rw [← hg, Function.update_self]
      show { cur.ghostFlags with edgeAdded := b } = _
      rw [h.ghost]
  · rw [if_neg hg]
    obtain ⟨x, hx⟩ := Option.isSome_iff_exists.1 (hu.resolve_left hg)
    have hc := h.get u
    rw [hx] at hc
    rw [if_pos (by rw [hc]; rfl)]
    refine ⟨_, rfl, rfl, ⟨?_, h.wf.modify _ _, ?_⟩⟩
    · intro j
      show (cur.vertices.modify u _).get j = _
      rw [IdMap.get_modify]
      by_cases hj : j = u
      · subst hj
        rw [if_pos rfl, hc, hx, Function.update_self]
        rfl
      · rw [if_neg hj, Function.update_of_ne hj]
        exact h.get j
    · rw [Function.update_of_ne (Ne.symm hg)]
      exact h.ghost

section
variable {m : Mesh P V T} {v : VId} {B : List Walker} {E : List TId} {A : TId × Fin 4 → TId} {m2 m3 m4 : Mesh P V T}
  {mate : Walker → Walker}

/-- While the new edges are added. -/
structure EdgeInv (m m4 : Mesh P V T) (v : VId) (E : List TId) (A : TId × Fin 4 → TId) (F : VId → Bool) (η : VId → EId)
    (n : Nat) (cur : Mesh P V T) : Prop where
  eq : cur = { m4 with tets := cur.tets, edges := cur.edges, vertices := cur.vertices, ghostFlags := cur.ghostFlags }
  sp : ∃ σ, SpInv m m4 E A σ cur ∧ ∀ h u, Outer m E h → m.first h = some u → F u = true → σ h = some (η u)
  flags : FlagInv m4 F cur
  ewf : cur.edges.WF
  esize : cur.edges.size ≤ m4.edges.size + n
  eold : ∀ e ue, m4.edges.get e = some ue → cur.edges.get e = some ue
  enew : ∀ u, F u = true → m4.edges.get (η u) = none ∧ cur.edges.get (η u) = some (UEdge.new (u, v))
  eonly : ∀ e ue, cur.edges.get e = some ue → m4.edges.get e = some ue ∨ ∃ u, F u = true ∧ e = η u
  ok : ∀ u, F u = true → ∃ h, Outer m E h ∧ m.first h = some u

theorem FI.corner (h : FI m v B E) (h2 : Dropped m B E m2) (h3 : Dupped m B E A m2 m3) (h4 : Filled m m3 v E A mate m4)
    {w : Walker} {u : VId} (hu : m.first w = some u) : u = GHOST ∨ (m4.vertices.get u).isSome := by
  simp only [Mesh.first, Option.map_eq_some_iff] at hu
  obtain ⟨t, ht, rfl⟩ := hu
  rcases h.cons.vlive _ t (firstIdx w.edge) ht with h5 | ⟨x, _, h5, -⟩
  · exact .inl h5
  · right
    obtain ⟨L, hL, -⟩ := h4.verts
    rw [hL]
    obtain ⟨y, hy⟩ := setTets_keep L h5
    have hy : (setTets m.vertices L).get (t.first w.edge) = _ := hy
    rw [hy]
    rfl

theorem FI.sp_first (h : FI m v B E) (h4 : Filled m m3 v E A mate m4) {σ cur} (hi : SpInv m m4 E A σ cur) {w : Walker}
    (hw : Outer m E w) {u : VId} (hu : m.first w = some u) : cur.first (sp A w) = some u ∧ cur.first (nw A w) = some u := by
  obtain ⟨t0, ht0⟩ := h.get hw
  obtain ⟨t, ht, hv, -⟩ := h4.inn w t0 hw ht0
  obtain ⟨es, hg, -⟩ := hi.inn w t hw ht
  simp only [Mesh.first, ht0, Option.map_some, Option.some.injEq] at hu
  have k1 : ∀ c, firstIdx (toPerm c P0312) = firstIdx c := by decide
  have k2 : ∀ c, firstIdx c ≠ face c := by decide
  have e : t.first w.edge = u := by
    rw [← hu, Tet.first, Tet.first, hv, Function.update_of_ne (k2 _)]
  constructor
  · have hg' : cur.tets.get (sp A w).tet = some { t with edges := es } := hg
    rw [Mesh.first, hg', Option.map_some, ← e]
    show some (t.vertices (firstIdx (toPerm w.edge P0312))) = _
    rw [k1]; rfl
  · have hg' : cur.tets.get (nw A w).tet = some { t with edges := es } := hg
    rw [Mesh.first, hg', Option.map_some, ← e]
    rfl

theorem FI.outer_count (h : FI m v B E) (l : List Walker) (hn : l.Nodup) (hl : ∀ x ∈ l, Outer m E x) : l.length ≤ 3 * B.length := by
  have hsub : l ⊆ B.flatMap fun b => [b, b.nfe, b.pfe] := by
    intro x hx
    obtain ⟨b, hb, e⟩ := h.base (hl x hx)
    rw [List.mem_flatMap]
    refine ⟨b, hb, ?_⟩
    rcases (sameTri_iff b x).2 e with h' | h' | h' <;> simp [h']
  have := (hn.subperm hsub).length_le
  rw [List.length_flatMap] at this
  have : (B.map fun b => [b, b.nfe, b.pfe].length).sum = 3 * B.length := by
    clear * -
    induction B with
    | nil => rfl
    | cons b B ih =>
      rw [List.map_cons, List.sum_cons, ih, List.length_cons]
      simp only [List.length_cons, List.length_nil]
      omega
  omega

theorem FI.edge_step (h : FI m v B E) (hmate : IsMate m E mate) (h2 : Dropped m B E m2) (h3 : Dupped m B E A m2 m3)
    (h4 : Filled m m3 v E A mate m4) {F : VId → Bool} {η : VId → EId} {n : Nat} {cur : Mesh P V T}
    (hi : EdgeInv m m4 v E A F η n cur) {w : Walker} (hw : Outer m E w) {u : VId} (hu : m.first w = some u)
    {fuel : Nat} (room : m4.edges.size + n < idMax ∨ (cur.fiEdge v fuel (sp A w)).isSome) (hf : 3 * B.length ≤ fuel) :
    ∃ cur' F' η', cur.fiEdge v fuel (sp A w) = some cur' ∧ EdgeInv m m4 v E A F' η' (n + 1) cur' ∧ F' u = true ∧
      ∀ x, F x = true → F' x = true := by
  obtain ⟨σ, hσ, hσ2⟩ := hi.sp
  have hfst := (h.sp_first h4 hσ hw hu).1
  have hcor := h.corner h2 h3 h4 hu
  have hrd := hi.flags.read hcor
  cases hFu : F u with
  | true =>
    refine ⟨cur, F, η, ?_, ⟨hi.eq, hi.sp, hi.flags, hi.ewf, by have := hi.esize; omega, hi.eold, hi.enew, hi.eonly, hi.ok⟩, hFu, fun _ h => h⟩
    simp only [Mesh.fiEdge, hfst, Option.bind_eq_bind, Option.bind_some, hrd, hFu, if_true]
  | false =>
    obtain ⟨c1, a1, a2, a3⟩ := hi.flags.write true hcor
    have e1 : c1.edges = cur.edges := by rw [a2]
    have t1 : c1.tets = cur.tets := by rw [a2]
    have hroom : cur.edges.size < idMax := by
      rcases room with room | room
      · exact lt_of_le_of_lt hi.esize room
      · refine hi.ewf.room (x := UEdge.new (u, v)) ?_
        cases hins : cur.edges.insert (UEdge.new (u, v)) with
        | some r => rfl
        | none => simp [Mesh.fiEdge, hfst, hrd, hFu, a1, Mesh.insertEdge, e1, hins] at room
    obtain ⟨es, id, b1, b2, b3, b4, b5⟩ := Mesh.insertEdge_step (m := cur) hi.ewf hroom (u, v)
    have b1' := b1 c1 e1
    obtain ⟨l, r1, r2, r3⟩ := h.cycle hmate hw hu
    have hlen := h.outer_count (w :: l) r2 fun x hx => ((r3 x).1 hx).1
    have hS2 : SpInv m m4 E A σ { c1 with edges := es } := hσ.congr t1
    obtain ⟨c3, d1, d2, σ', d3, d4, d5⟩ := sp_ring h h3 h4 id hw l (fuel := fuel) hS2 r1 (fun x hx => ((r3 x).1 hx).1)
      (List.nodup_cons.1 r2).1 (by simp at hlen; omega)
    have ht3 : c3 = { c1 with edges := es, tets := c3.tets } := by rw [d2.eq]
    have hnu : ∀ x, F x = true → x ≠ u := by rintro x hx rfl; rw [hFu] at hx; cases hx
    have hF' : ∀ x, Function.update F u true x = true → x ≠ u → F x = true := by
      intro x hx hxu; rwa [Function.update_of_ne hxu] at hx
    have hid : m4.edges.get id = none := by
      cases hx : m4.edges.get id with
      | none => rfl
      | some ue => rw [hi.eold id ue hx] at b3; cases b3
    refine ⟨c3, Function.update F u true, Function.update η u id, ?_, ⟨?_, ?_, ?_, ?_, ?_, ?_, ?_, ?_, ?_⟩, Function.update_self _ _ _, ?_⟩
    · simp only [Mesh.fiEdge, hfst, Option.bind_eq_bind, Option.bind_some, hrd, hFu, Bool.false_eq_true, if_false, a1, b1']
      exact d1
    · rw [ht3, a2]; rw [hi.eq]
    · refine ⟨σ', d3, ?_⟩
      intro x u' hx hxu hFx
      by_cases hu' : u' = u
      · subst hu'
        rw [d4 x ((r3 x).2 ⟨hx, hxu⟩), Function.update_self]
      · rw [d5 x, Function.update_of_ne hu']
        · exact hσ2 x u' hx hxu (hF' u' hFx hu')
        · intro hc
          have := ((r3 x).1 hc).2
          rw [hxu] at this
          exact hu' (Option.some.inj this)
    · exact a3.congr (by rw [ht3]) (by rw [ht3])
    · rw [ht3]; exact b2
    · have : c3.edges.size = es.size := by rw [ht3]
      have := hi.esize
      omega
    · intro e ue he
      have h5 := hi.eold e ue he
      rw [show c3.edges = es by rw [ht3], b4, if_neg, h5]
      rintro rfl
      rw [b3] at h5; cases h5
    · intro x hx
      rw [show c3.edges = es by rw [ht3]]
      by_cases hxu : x = u
      · subst hxu
        rw [Function.update_self]
        exact ⟨hid, by rw [b4, if_pos rfl]⟩
      · rw [Function.update_of_ne hxu]
        obtain ⟨h5, h6⟩ := hi.enew x (hF' x hx hxu)
        refine ⟨h5, ?_⟩
        rw [b4, if_neg, h6]
        intro e
        rw [e, b3] at h6; cases h6
    · intro e ue he
      rw [show c3.edges = es by rw [ht3], b4] at he
      by_cases hee : e = id
      · exact .inr ⟨u, Function.update_self _ _ _, by rw [Function.update_self, hee]⟩
      · rw [if_neg hee] at he
        rcases hi.eonly e ue he with h5 | ⟨x, h5, h6⟩
        · exact .inl h5
        · right
          refine ⟨x, ?_, ?_⟩
          · rw [Function.update_of_ne (hnu x h5)]; exact h5
          · rw [Function.update_of_ne (hnu x h5)]; exact h6
    · intro x hx
      by_cases hxu : x = u
      · exact ⟨w, hw, hxu ▸ hu⟩
      · exact hi.ok x (hF' x hx hxu)
    · intro x hx
      rw [Function.update_of_ne (hnu x hx)]; exact hx

theorem FI.edges_step (h : FI m v B E) (hmate : IsMate m E mate) (h2 : Dropped m B E m2) (h3 : Dupped m B E A m2 m3)
    (h4 : Filled m m3 v E A mate m4) {F : VId → Bool} {η : VId → EId} {n : Nat} {cur : Mesh P V T}
    (hi : EdgeInv m m4 v E A F η n cur) {w : Walker} (hw : Outer m E w)
    {fuel : Nat} (room : m4.edges.size + n + 3 ≤ idMax ∨ (cur.fiEdges v fuel (nw A w)).isSome) (hf : 3 * B.length ≤ fuel) :
    ∃ cur' F' η', cur.fiEdges v fuel (nw A w) = some cur' ∧ EdgeInv m m4 v E A F' η' (n + 3) cur' ∧
      (∀ x u, fid x = fid w → m.first x = some u → F' u = true) ∧ ∀ x, F x = true → F' x = true := by
  obtain ⟨t, ht⟩ := h.get hw
  have hfst : ∀ x : Walker, fid x = fid w → m.first x = some (t.first x.edge) := by
    intro x hx
    have e1 : x.tet = w.tet := congrArg Prod.fst hx
    rw [Mesh.first, e1, ht]; rfl
  have k1 : ∀ c, toPerm c P1320 = toPerm (_root_.Tet.nfe c) P0312 := by decide
  have k2 : ∀ c, toPerm c P2301 = toPerm (_root_.Tet.pfe c) P0312 := by decide
  have q1 : (nw A w).perm P1320 = sp A w.nfe := by
    simp only [sp, nw, Walker.perm, fid_nfe, k1]; rfl
  have q2 : (nw A w).perm P2301 = sp A w.pfe := by
    simp only [sp, nw, Walker.perm, fid_pfe, k2]; rfl
  have q0 : (nw A w).perm P0312 = sp A w := rfl
  have hrun : cur.fiEdges v fuel (nw A w) = (cur.fiEdge v fuel (sp A w)).bind fun c1 =>
      (c1.fiEdge v fuel (sp A w.nfe)).bind fun c2 => (c2.fiEdge v fuel (sp A w.pfe)).bind fun c3 => some c3 := by
    simp only [Mesh.fiEdges, List.foldlM_cons, List.foldlM_nil, q0, q1, q2, Option.bind_eq_bind]
    rfl
  rw [hrun] at room ⊢
  obtain ⟨c1, F1, η1, a1, a2, a3, a4⟩ := h.edge_step hmate h2 h3 h4 hi hw (hfst w rfl) (room.imp (fun _ => by omega) fun room => by
    cases hx : cur.fiEdge v fuel (sp A w) with
    | some r => rfl
    | none => simp [hx] at room) hf
  rw [a1, Option.bind_some] at room
  obtain ⟨c2, F2, η2, b1, b2, b3, b4⟩ := h.edge_step hmate h2 h3 h4 a2 (hw.congr (fid_nfe w)) (hfst w.nfe (fid_nfe w))
    (room.imp (fun _ => by omega) fun room => by
      cases hx : c1.fiEdge v fuel (sp A w.nfe) with
      | some r => rfl
      | none => simp [hx] at room) hf
  rw [b1, Option.bind_some] at room
  obtain ⟨c3, F3, η3, d1, d2, d3, d4⟩ := h.edge_step hmate h2 h3 h4 b2 (hw.congr (fid_pfe w)) (hfst w.pfe (fid_pfe w))
    (room.imp (fun _ => by omega) fun room => by
      cases hx : c2.fiEdge v fuel (sp A w.pfe) with
      | some r => rfl
      | none => simp [hx] at room) hf
  refine ⟨c3, F3, η3, ?_, d2, ?_, fun x hx => d4 x (b4 x (a4 x hx))⟩
  · rw [a1, Option.bind_some, b1, Option.bind_some, d1, Option.bind_some]
  · intro x u hx hxu
    rw [hfst x hx] at hxu
    cases hxu
    rcases (sameTri_iff w x).2 hx with h' | h' | h' <;> rw [h']
    · exact d4 _ (b4 _ a3)
    · exact d4 _ b3
    · exact d3

theorem FI.edges_fold (h : FI m v B E) (hmate : IsMate m E mate) (h2 : Dropped m B E m2) (h3 : Dupped m B E A m2 m3)
    (h4 : Filled m m3 v E A mate m4) {fuel : Nat} (hf : 3 * B.length ≤ fuel) (rest : List Walker) :
    ∀ {F : VId → Bool} {η : VId → EId} {n : Nat} {cur : Mesh P V T},
    EdgeInv m m4 v E A F η n cur → (∀ w ∈ rest, Outer m E w) →
    m4.edges.size + n + 3 * rest.length ≤ idMax ∨ ((rest.map (nw A)).foldlM (Mesh.fiEdges v fuel) cur).isSome →
    ∃ cur' F' η', (rest.map (nw A)).foldlM (Mesh.fiEdges v fuel) cur = some cur' ∧
      EdgeInv m m4 v E A F' η' (n + 3 * rest.length) cur' ∧
      (∀ w ∈ rest, ∀ x u, fid x = fid w → m.first x = some u → F' u = true) ∧ ∀ x, F x = true → F' x = true := by
  induction rest with
  | nil =>
    intro F η n cur hi _ _
    exact ⟨cur, F, η, rfl, hi, by simp, fun _ h => h⟩
  | cons w rest ih =>
    intro F η n cur hi ho room
    rw [List.map_cons, List.foldlM_cons] at room
    simp only [List.length_cons] at room
    obtain ⟨c1, F1, η1, a1, a2, a3, a4⟩ := h.edges_step hmate h2 h3 h4 hi (ho w (by simp)) (room.imp (fun _ => by omega) fun room => by
      cases hx : cur.fiEdges v fuel (nw A w) with
      | some r => rfl
      | none => simp [hx] at room) hf
    rw [a1] at room
    obtain ⟨c2, F2, η2, b1, b2, b3, b4⟩ := ih a2 (fun x hx => ho x (by simp [hx])) (room.imp (fun _ => by omega) id)
    refine ⟨c2, F2, η2, ?_, ?_, ?_, fun x hx => b4 x (a4 x hx)⟩
    · rw [List.map_cons, List.foldlM_cons, a1]; exact b1
    · rw [List.length_cons, show n + 3 * (rest.length + 1) = n + 3 + 3 * rest.length by omega]; exact b2
    · intro x hx y u hy hyu
      rcases List.mem_cons.1 hx with rfl | hx
      · exact b4 u (a3 y u hy hyu)
      · exact b3 x hx y u hy hyu

theorem FI.edgeInv_nil (h : FI m v B E) (h2 : Dropped m B E m2) (h3 : Dupped m B E A m2 m3)
    (h4 : Filled m m3 v E A mate m4) : EdgeInv m m4 v E A (fun _ => false) (fun _ => 0) 0 m4 where
  eq := rfl
  sp := ⟨fun _ => none, ⟨h4.twf, rfl, fun _ _ => rfl, fun w t _ ht => ⟨t.edges, ht, fun _ _ => rfl, by simp⟩⟩, by simp⟩
  flags := by
    obtain ⟨L, hL, -⟩ := h4.verts
    refine ⟨?_, ?_, ?_⟩
    · intro u
      cases hx : m4.vertices.get u with
      | none => rfl
      | some x =>
        have : x.flags.edgeAdded = false := by
          rw [hL] at hx
          rcases setTets_some hx with ⟨-, h5⟩ | ⟨w, y, -, h5, rfl⟩
          · exact h.tidy.vertices _ _ h5
          · exact h.tidy.vertices u y h5
        rw [Option.map_some, Option.some.injEq]
        obtain ⟨a, ⟨b, c⟩, d, e⟩ := x
        simp only at this
        rw [this]
        rfl
    · rw [hL]; exact setTets_wf h.cons.stored.1 L
    · have h5 : m4.ghostFlags = m.ghostFlags := by rw [h4.eq, h3.eq, h2.eq]
      have h6 := h.tidy.ghost
      rw [← h5] at h6
      cases hg : m4.ghostFlags with
      | mk a b => rw [hg] at h6; simp only at h6; rw [h6]
  ewf := h4.ewf
  esize := by simp
  eold := fun _ _ h => h
  enew := by simp
  eonly := fun _ _ h => .inl h
  ok := by simp

/-! ## Clearing -/

theorem FI.clear_step (h : FI m v B E) (h2 : Dropped m B E m2) (h3 : Dupped m B E A m2 m3)
    (h4 : Filled m m3 v E A mate m4) {F : VId → Bool} {σ} {cur : Mesh P V T} (hσ : SpInv m m4 E A σ cur)
    (hi : FlagInv m4 F cur) {w : Walker} (hw : Outer m E w) :
    ∃ cur' F', cur.fiClear (nw A w) = some cur' ∧
      cur' = { cur with vertices := cur'.vertices, ghostFlags := cur'.ghostFlags } ∧ FlagInv m4 F' cur' ∧
      (∀ x u, fid x = fid w → m.first x = some u → F' u = false) ∧ ∀ x, F x = false → F' x = false := by
  obtain ⟨t, ht⟩ := h.get hw
  have hfst : ∀ x : Walker, fid x = fid w → m.first x = some (t.first x.edge) := by
    intro x hx
    have e1 : x.tet = w.tet := congrArg Prod.fst hx
    rw [Mesh.first, e1, ht]; rfl
  obtain ⟨c1, a1, a2, a3⟩ := hi.write false (h.corner h2 h3 h4 (hfst w rfl))
  obtain ⟨c2, b1, b2, b3⟩ := a3.write false (h.corner h2 h3 h4 (hfst w.nfe (fid_nfe w)))
  obtain ⟨c3, d1, d2, d3⟩ := b3.write false (h.corner h2 h3 h4 (hfst w.pfe (fid_pfe w)))
  have q1 : nw A w.nfe = (nw A w).nfe := by simp only [nw, fid_nfe]; rfl
  have q2 : nw A w.pfe = (nw A w).pfe := by simp only [nw, fid_pfe]; rfl
  have s1 : SpInv m m4 E A σ c1 := hσ.congr (by rw [a2])
  have s2 : SpInv m m4 E A σ c2 := s1.congr (by rw [b2])
  have f0 := (h.sp_first h4 hσ hw (hfst w rfl)).2
  have f1 := (h.sp_first h4 s1 (hw.congr (fid_nfe w)) (hfst w.nfe (fid_nfe w))).2
  have f2 := (h.sp_first h4 s2 (hw.congr (fid_pfe w)) (hfst w.pfe (fid_pfe w))).2
  rw [q1] at f1
  rw [q2] at f2
  have upd : ∀ {F : VId → Bool} {x : VId} (y : VId), F x = false → Function.update F y false x = false := by
    intro F x y hx
    by_cases hxy : x = y
    · rw [hxy]; exact Function.update_self _ _ _
    · rw [Function.update_of_ne hxy]; exact hx
  refine ⟨c3, _, ?_, ?_, d3, ?_, ?_⟩
  · simp only [Mesh.fiClear, List.foldlM_cons, List.foldlM_nil, f0, f1, f2, a1, b1, d1, Option.bind_eq_bind, Option.bind_some]
    rfl
  · rw [d2]; rw [b2]; rw [a2]
  · intro x u hx hxu
    rw [hfst x hx] at hxu
    cases hxu
    rcases (sameTri_iff w x).2 hx with h' | h' | h' <;> rw [h']
    · exact upd _ (upd _ (Function.update_self _ _ _))
    · exact upd _ (Function.update_self _ _ _)
    · exact Function.update_self _ _ _
  · intro x hx
    exact upd _ (upd _ (upd _ hx))

theorem FI.clears (h : FI m v B E) (h2 : Dropped m B E m2) (h3 : Dupped m B E A m2 m3)
    (h4 : Filled m m3 v E A mate m4) (rest : List Walker) : ∀ {F : VId → Bool} {σ} {cur : Mesh P V T},
    SpInv m m4 E A σ cur → FlagInv m4 F cur → (∀ w ∈ rest, Outer m E w) →
    ∃ cur' F', (rest.map (nw A)).foldlM Mesh.fiClear cur = some cur' ∧
      cur' = { cur with vertices := cur'.vertices, ghostFlags := cur'.ghostFlags } ∧ FlagInv m4 F' cur' ∧
      (∀ w ∈ rest, ∀ x u, fid x = fid w → m.first x = some u → F' u = false) ∧ ∀ x, F x = false → F' x = false := by
  induction rest with
  | nil =>
    intro F σ cur _ hi _
    exact ⟨cur, F, rfl, rfl, hi, by simp, fun _ h => h⟩
  | cons w rest ih =>
    intro F σ cur hσ hi ho
    obtain ⟨c1, F1, a1, a2, a3, a4, a5⟩ := h.clear_step h2 h3 h4 hσ hi (ho w (by simp))
    obtain ⟨c2, F2, b1, b2, b3, b4, b5⟩ := ih (hσ.congr (show c1.tets = cur.tets by rw [a2])) a3 fun x hx => ho x (by simp [hx])
    refine ⟨c2, F2, ?_, ?_, b3, ?_, fun x hx => b5 x (a5 x hx)⟩
    · rw [List.map_cons, List.foldlM_cons, a1]; exact b1
    · rw [b2]; rw [a2]
    · intro x hx y u hy hyu
      rcases List.mem_cons.1 hx with rfl | hx
      · exact b5 u (a4 y u hy hyu)
      · exact b4 x hx y u hy hyu

end
end Tet
