import Verif.Proofs.PlcRead

/-!
# A `Plc` always represents its contents
-/

namespace Tet.Plc
open Linked PlcSpec Spec
variable {P Q V E F : Type}

theorem mem_cyc {vs : List Nat} {e : Nat × Nat} (h : e ∈ cyc vs) : e.1 ∈ vs ∧ e.2 ∈ vs := by
  match vs, h with
  | a :: b :: l, h =>
    obtain ⟨h1, h2⟩ := List.of_mem_zip (a := e.1) (b := e.2) h
    refine ⟨h1, ?_⟩
    simp only [List.cons_append, List.mem_cons, List.mem_append, List.not_mem_nil, or_false] at h2 ⊢
    tauto

/-- The `Plc` represents the contents. -/
structure Rep (g : Geom P Q) (d : E) (p : Plc P Q V E F) (c : Contents P V E F) : Prop where
  base : Base p
  ring : (layerRing p.faceEdges p.rings).Ok
  face : (layerFace p.rings p.faces).Ok
  default : p.defaultEdge = d
  vertices : ∀ i, (p.vertices.get i).map (fun x => (x.position, x.value)) = c.vertices[i]?
  edges : HasEdges p c.edges
  value : ∀ i, (p.faces.get i).map (·.value) = (c.faces[i]?).map Prod.snd
  has : ∀ i x, c.faces[i]? = some x → List.Forall₂ (RingHas p) (faceMem p i) x.1
  plane : ∀ i, (p.faces.get i).map (·.plane) = (c.faces[i]?).map fun x => c.plane g x.1
  allowed : ∀ x ∈ c.faces, x.1 ≠ [] ∧ ∀ vs ∈ x.1, vs ≠ [] ∧ ∀ v ∈ vs, v < c.vertices.length
  rtop : p.rings.top = c.rings.length
  fetop : p.faceEdges.top ≤ c.rings.flatten.length

theorem Rep.vtop {g : Geom P Q} {d : E} {p : Plc P Q V E F} {c : Contents P V E F} (h : Rep g d p c) :
    p.vertices.top = c.vertices.length := top_eq_length h.base.fv h.vertices

theorem Rep.ftop {g : Geom P Q} {d : E} {p : Plc P Q V E F} {c : Contents P V E F} (h : Rep g d p c) :
    p.faces.top = c.faces.length := by
  have := h.value
  rw [← List.length_map (f := Prod.snd)]
  exact top_eq_length h.base.fs fun i => by rw [this, List.getElem?_map]

theorem Rep.etop {g : Geom P Q} {d : E} {p : Plc P Q V E F} {c : Contents P V E F} (h : Rep g d p c) :
    p.edges.top = c.edges.length := h.edges.length h.base

theorem Rep.pos {g : Geom P Q} {d : E} {p : Plc P Q V E F} {c : Contents P V E F} (h : Rep g d p c) (v : Nat) :
    (p.vertices.get v).map (·.position) = c.pos v := by
  rw [Contents.pos, ← h.vertices, Option.map_map]
  rfl

theorem get_empty {A : Type} (i : Nat) : (IdMap.empty : IdMap A).get i = none := by
  cases h : (IdMap.empty : IdMap A).get i with
  | none => rfl
  | some x =>
    have := IdMap.lt_top h
    simp [IdMap.top, IdMap.empty, StableVec.empty] at this

theorem layer_empty {L : Layer} (h : ∀ k, L.first k = none) : L.Ok := by
  intro k o ho
  rw [h k] at ho
  cases ho

theorem rep_new (g : Geom P Q) (d : E) : Rep g d (new d : Plc P Q V E F) Contents.empty := by
  refine ⟨⟨IdMap.Full.empty, IdMap.Full.empty, IdMap.Full.empty, IdMap.Full.empty, IdMap.Full.empty,
    layer_empty ?_, layer_empty ?_, layer_empty ?_, ?_, ?_, ?_, ?_, ?_, ?_, ?_⟩,
    layer_empty ?_, layer_empty ?_, rfl, ?_, ?_, ?_, ?_, ?_, ?_, rfl, le_refl _⟩
  all_goals
    intros
    simp_all [new, layerOut, layerIn, layerOn, layerRing, layerFace, get_empty, HasEdges, Contents.empty]

/-! ## Vertices -/

theorem Rep.addVertex {g : Geom P Q} {d : E} {p p' : Plc P Q V E F} {c : Contents P V E F} {pos : P} {value : V}
    {id : Nat} (h : Rep g d p c) (hc : p.addVertex pos value = some (p', id)) :
    Rep g d p' (c.apply d (.vertex pos value)) ∧ id = c.vertices.length := by
  unfold Plc.addVertex at hc
  simp only [Option.bind_eq_bind] at hc
  obtain ⟨⟨vl, id'⟩, hi, hc⟩ := Option.bind_eq_some_iff.1 hc
  simp only [Option.pure_def, Option.some.injEq, Prod.mk.injEq] at hc
  obtain ⟨rfl, rfl⟩ := hc
  obtain ⟨hid, hf, ht, -, hg⟩ := h.base.fv.insert_some hi
  have b := h.base
  have hvt := h.vtop
  have hmap : ∀ {B : Type} (f : Vertex P V → B) (i : Nat), (vl.get i).map f =
      if i = p.vertices.top then some (f (Vertex.new pos value)) else (p.vertices.get i).map f := by
    intro B f i
    rw [hg]
    split <;> rfl
  have hpos : ∀ v < c.vertices.length, (c.apply d (.vertex pos value)).pos v = c.pos v := by
    intro v hv
    simp only [Contents.pos, Contents.apply]
    rw [List.getElem?_append_left hv]
  refine ⟨⟨⟨hf, b.fe, b.fl, b.fr, b.fs, ?_, ?_, b.on, ?_, b.edgeMap, b.feEdge, b.feRing, b.ringFace, ?_, ?_⟩,
    h.ring, h.face, h.default, ?_, h.edges, h.value, h.has, ?_, ?_, h.rtop, h.fetop⟩, by rw [hid, hvt]⟩
  · intro k o ho
    have ho' : (vl.get k).map (·.edgeOut) = some o := ho
    rw [hmap] at ho'
    split at ho'
    · rename_i hk
      have : idMax = o := Option.some.inj ho'
      refine .inl ⟨?_, this.symm⟩
      rw [List.eq_nil_iff_forall_not_mem]
      intro i hi
      have a : (p.edges.get i).map (·.vertices.1) = some k := (Layer.mem_mem.1 hi).2
      obtain ⟨x, hx, hxk⟩ := Option.map_eq_some_iff.1 a
      have := (b.ends i x.vertices (by rw [hx]; rfl)).1
      omega
    · exact b.out k o ho'
  · intro k o ho
    have ho' : (vl.get k).map (·.edgeIn) = some o := ho
    rw [hmap] at ho'
    split at ho'
    · rename_i hk
      have : idMax = o := Option.some.inj ho'
      refine .inl ⟨?_, this.symm⟩
      rw [List.eq_nil_iff_forall_not_mem]
      intro i hi
      have a : (p.edges.get i).map (·.vertices.2) = some k := (Layer.mem_mem.1 hi).2
      obtain ⟨x, hx, hxk⟩ := Option.map_eq_some_iff.1 a
      have := (b.ends i x.vertices (by rw [hx]; rfl)).2
      omega
    · exact b.inn k o ho'
  · intro e vs he
    have := b.ends e vs he
    show vs.1 < vl.top ∧ vs.2 < vl.top
    omega
  · intro r v hv
    have := b.iso r v hv
    show v < vl.top
    omega
  · intro v x hx
    have hx' : (vl.get v).map (·.ring) = some x := hx
    rw [hmap] at hx'
    split at hx'
    · rename_i hv
      have : idMax = x := Option.some.inj hx'
      rw [← this]
      have : isoRings p.rings v = [] := by
        rw [List.eq_nil_iff_forall_not_mem]
        intro r hr
        have := b.iso r v (by simpa [isoRings] using (List.mem_filter.1 hr).2)
        omega
      show _ = (isoRings p.rings v).getLast?.getD idMax
      rw [this]; rfl
    · exact b.back v x hx'
  · intro i
    show (vl.get i).map _ = (c.vertices ++ [(pos, value)])[i]?
    rw [hmap]
    split
    · rename_i hi
      rw [hi, hvt, List.getElem?_concat_length]
      rfl
    · rename_i hi
      rw [h.vertices]
      rcases Nat.lt_trichotomy i c.vertices.length with hl | hl | hl
      · rw [List.getElem?_append_left hl]
      · omega
      · rw [List.getElem?_eq_none (by omega), List.getElem?_eq_none (by simp; omega)]
  · intro i
    rw [show ((_ : Plc P Q V E F).faces.get i).map _ = _ from h.plane i]
    show (c.faces[i]?).map _ = (c.faces[i]?).map _
    cases hx : c.faces[i]? with
    | none => rfl
    | some x =>
      simp only [Option.map_some, Contents.plane]
      obtain ⟨-, ha⟩ := h.allowed x (List.mem_of_getElem? hx)
      congr 2
      · refine List.filterMap_congr fun v hv => ?_
        obtain ⟨vs, hvs, hv⟩ := List.mem_flatten.1 hv
        exact (hpos v ((ha vs hvs).2 v hv)).symm
      · refine List.filterMap_congr fun e he => ?_
        obtain ⟨vs, hvs, he⟩ := List.mem_flatMap.1 he
        have : e.1 ∈ vs ∧ e.2 ∈ vs := mem_cyc he
        rw [hpos _ ((ha vs hvs).2 _ this.1), hpos _ ((ha vs hvs).2 _ this.2)]
  · intro x hx
    obtain ⟨h1, h2⟩ := h.allowed x hx
    refine ⟨h1, fun vs hvs => ⟨(h2 vs hvs).1, fun v hv => ?_⟩⟩
    have := (h2 vs hvs).2 v hv
    show v < (c.vertices ++ [(pos, value)]).length
    rw [List.length_append]
    omega

/-! ## Edges -/

theorem OnlyEdges.keeps {p p' : Plc P Q V E F} (h : OnlyEdges p p')
    (hv : ∀ e vs, (p.edges.get e).map (·.vertices) = some vs → (p'.edges.get e).map (·.vertices) = some vs)
    (nr : Nat) : Keeps nr p p' := by
  refine ⟨h.vertices.top, h.vertices.position, h.vertices.value, hv, ?_, ?_, ?_, h.defaultEdge⟩
  · intro i e hi; rw [h.faceEdges]; exact hi
  · intro r _; rw [ringMem, h.faceEdges, h.rings, ringMem]
  · intro r _ x hx; rw [h.rings]; exact hx

theorem Rep.onlyEdges {g : Geom P Q} {d : E} {p p' : Plc P Q V E F} {c : Contents P V E F}
    {l : List ((Nat × Nat) × E)} (h : Rep g d p c) (hb : Base p') (hl : HasEdges p' l) (ho : OnlyEdges p p')
    (hv : ∀ e vs, (p.edges.get e).map (·.vertices) = some vs → (p'.edges.get e).map (·.vertices) = some vs) :
    Rep g d p' { c with edges := l } := by
  refine ⟨hb, ?_, ?_, ho.defaultEdge.trans h.default, ?_, hl, ?_, ?_, ?_, h.allowed, ?_, ?_⟩
  · rw [ho.faceEdges, ho.rings]; exact h.ring
  · rw [ho.faces, ho.rings]; exact h.face
  · intro i
    show _ = c.vertices[i]?
    rw [← h.vertices i]
    have h1 := ho.vertices.position i
    have h2 := ho.vertices.value i
    cases ha : p'.vertices.get i <;> cases hb : p.vertices.get i <;> simp_all
  · intro i; rw [ho.faces]; exact h.value i
  · intro i x hx
    rw [show faceMem p' i = faceMem p i by rw [faceMem, ho.rings, ho.faces, faceMem]]
    exact forall₂_imp (fun r vs hr hrv => hrv.keeps (ho.keeps hv p.rings.top) (Layer.lt_of_mem hr)) (h.has i x hx)
  · intro i; rw [ho.faces]; exact h.plane i
  · rw [ho.rings]; exact h.rtop
  · rw [ho.faceEdges]; exact h.fetop

theorem Rep.addEdgeIfAbsent {g : Geom P Q} {d : E} {p p' : Plc P Q V E F} {c : Contents P V E F}
    {vs : Nat × Nat} {value : E} {id : Nat} (h : Rep g d p c)
    (hc : p.addEdgeIfAbsent vs value = some (p', id)) :
    Rep g d p' (c.apply d (.edgeIfAbsent vs value)) ∧ id = c.result (.edgeIfAbsent vs value) ∧
      c.allows (.edgeIfAbsent vs value : Op P V E F) := by
  obtain ⟨h1, h2, h3⟩ := addEdgeIfAbsent_some h.base hc
  obtain ⟨p2, e, hp, hb, hl, ho, -, -, -, he, hv⟩ := addEdgeIfAbsent_ok value h.base h.edges h1 h2 h3
  rw [hc] at hp
  simp only [Option.some.injEq, Prod.mk.injEq] at hp
  obtain ⟨rfl, rfl⟩ := hp
  refine ⟨h.onlyEdges hb hl ho hv, he, ?_⟩
  rw [h.vtop] at h1 h2
  exact ⟨h1, h2⟩

theorem addEdgeIfAbsent_isSome {g : Geom P Q} {d : E} {p : Plc P Q V E F} {c : Contents P V E F}
    {vs : Nat × Nat} {value : E} (h : Rep g d p c) (ha : c.allows (.edgeIfAbsent vs value : Op P V E F))
    (hr : c.room (.edgeIfAbsent vs value : Op P V E F)) : (p.addEdgeIfAbsent vs value).isSome := by
  obtain ⟨h1, h2⟩ := ha
  rw [← h.vtop] at h1 h2
  obtain ⟨p2, e, hp, -⟩ := addEdgeIfAbsent_ok value h.base h.edges h1 h2 (by
    rcases hr with hr | hr
    · rw [← h.etop] at hr; exact .inl hr
    · exact .inr ((h.edges.mem h.base vs).1 hr))
  rw [hp]; rfl

/-- Replacing the value of an edge. -/
theorem setValue_ok {p : Plc P Q V E F} {l : List ((Nat × Nat) × E)} {vs : Nat × Nat} {id : Nat} (value : E)
    (hb : Base p) (hl : HasEdges p l) (hm : p.edgeMap vs = some id) :
    ∃ el, p.edges.upd id (fun x => { x with value }) = some el ∧ Base { p with edges := el } ∧
      HasEdges { p with edges := el } (put l vs value) ∧ OnlyEdges p { p with edges := el } ∧
      ∀ e, (el.get e).map (·.vertices) = (p.edges.get e).map (·.vertices) := by
  have hid := (hb.edgeMap vs id).1 hm
  obtain ⟨x, hx, hxv⟩ := Option.map_eq_some_iff.1 hid
  set el := p.edges.modify id fun x => { x with value } with hel
  have k1 : ∀ i, (el.get i).map (·.vertices) = (p.edges.get i).map (·.vertices) := by
    intro i; rw [hel, map_modify]; intro _; rfl
  have ko : layerOut p.vertices el = layerOut p.vertices p.edges := by
    simp only [layerOut, hel, IdMap.top_modify]
    congr 1
    all_goals (keepf; rfl)
  have ki : layerIn p.vertices el = layerIn p.vertices p.edges := by
    simp only [layerIn, hel, IdMap.top_modify]
    congr 1
    all_goals (keepf; rfl)
  have kn : layerOn el p.faceEdges = layerOn p.edges p.faceEdges := by
    simp only [layerOn, hel]
    congr 1
    keepf; rfl
  refine ⟨el, IdMap.upd_eq _ (by rw [hx]; rfl), ?_, ?_, ⟨SameV.rfl, rfl, rfl, rfl, rfl⟩, k1⟩
  · refine ⟨hb.fv, hb.fe.modify _ _, hb.fl, hb.fr, hb.fs, ?_, ?_, ?_, ?_, ?_, ?_, hb.feRing, hb.ringFace,
      hb.iso, hb.back⟩
    · show (layerOut p.vertices el).Ok
      rw [ko]; exact hb.out
    · show (layerIn p.vertices el).Ok
      rw [ki]; exact hb.inn
    · show (layerOn el p.faceEdges).Ok
      rw [kn]; exact hb.on
    · intro e ws he
      exact hb.ends e ws ((k1 e).symm.trans he)
    · intro ws e
      show _ ↔ (el.get e).map _ = _
      rw [k1]; exact hb.edgeMap ws e
    · intro i e he
      show e < el.top
      rw [hel, IdMap.top_modify]
      exact hb.feEdge i e he
  · intro i
    show (el.get i).map _ = _
    have hmem : vs ∈ l.map Prod.fst := by rw [hl.mem hb, hm]; rfl
    rw [put, if_pos hmem, List.getElem?_map, ← hl i, hel, IdMap.get_modify, Option.map_map]
    split
    · rename_i hi
      subst hi
      simp [hx, hxv]
    · rename_i hi
      cases hy : p.edges.get i with
      | none => rfl
      | some y =>
        simp only [Option.map_some, Function.comp]
        rw [if_neg]
        intro hyv
        have := (hb.edgeMap vs i).2 (by rw [hy, Option.map_some, hyv])
        rw [hm] at this
        exact hi (Option.some.inj this).symm

theorem Rep.addEdge {g : Geom P Q} {d : E} {p p' : Plc P Q V E F} {c : Contents P V E F}
    {vs : Nat × Nat} {value : E} {id : Nat} (h : Rep g d p c) (hc : p.addEdge vs value = some (p', id)) :
    Rep g d p' (c.apply d (.edge vs value)) ∧ id = c.result (.edge vs value) ∧
      c.allows (.edge vs value : Op P V E F) := by
  cases hm : p.edgeMap vs with
  | none =>
    have hc' : p.addEdgeIfAbsent vs value = some (p', id) := by
      simp only [Plc.addEdge, hm] at hc
      simp only [Plc.addEdgeIfAbsent, hm, hc]
    obtain ⟨h1, h2, h3⟩ := h.addEdgeIfAbsent hc'
    refine ⟨?_, h2, h3⟩
    have hnm : vs ∉ c.edges.map Prod.fst := by rw [h.edges.mem h.base, hm]; simp
    have : put c.edges vs value = putNew c.edges vs value := by rw [put, putNew, if_neg hnm, if_neg hnm]
    simp only [Contents.apply, this] at h1 ⊢
    exact h1
  | some i =>
    obtain ⟨el, h1, h2, h3, h4, h5⟩ := setValue_ok value h.base h.edges hm
    simp only [Plc.addEdge, hm, Option.bind_eq_bind, h1, Option.bind_some, Option.pure_def, Option.some.injEq,
      Prod.mk.injEq] at hc
    obtain ⟨rfl, rfl⟩ := hc
    refine ⟨h.onlyEdges h2 h3 h4 fun e ws he => (h5 e).trans he, h.edges.edgeMap h.base hm, ?_⟩
    have := h.base.ends i vs ((h.base.edgeMap vs i).1 hm)
    rw [h.vtop] at this
    exact this

theorem addEdge_isSome {g : Geom P Q} {d : E} {p : Plc P Q V E F} {c : Contents P V E F}
    {vs : Nat × Nat} {value : E} (h : Rep g d p c) (ha : c.allows (.edge vs value : Op P V E F))
    (hr : c.room (.edge vs value : Op P V E F)) : (p.addEdge vs value).isSome := by
  cases hm : p.edgeMap vs with
  | none =>
    have := addEdgeIfAbsent_isSome (value := value) h ha hr
    simpa only [Plc.addEdge, Plc.addEdgeIfAbsent, hm] using this
  | some i =>
    obtain ⟨el, h1, -⟩ := setValue_ok value h.base h.edges hm
    simp only [Plc.addEdge, hm, Option.bind_eq_bind, h1]
    rfl

/-! ## Faces -/

/-- The state of the loop over the rings before the first ring. -/
theorem face_start {g : Geom P Q} {d : E} {p : Plc P Q V E F} {c : Contents P V E F} {fs : IdMap (Face Q F)}
    {id : Nat} {q : Q} {value : F} (h : Rep g d p c) (hi : p.faces.insert ⟨idMax, q, value⟩ = some (fs, id)) :
    Base { p with faces := fs } ∧ Rings ⟨{ p with faces := fs }, idMax, idMax⟩ id [] := by
  obtain ⟨rfl, hf, ht, -, hg⟩ := h.base.fs.insert_some hi
  have b := h.base
  have hnil : faceMem { p with faces := fs } p.faces.top = [] := by
    rw [List.eq_nil_iff_forall_not_mem]
    intro r hr
    have := b.ringFace r _ (Layer.mem_mem.1 hr).2
    omega
  refine ⟨b.of_rings b.fr hf rfl (by omega) (fun _ => rfl) fun _ => rfl, ?_, ?_, ?_, ?_, ?_⟩
  · intro k o hk ho
    have ho' : (fs.get k).map (·.ring) = some o := ho
    rw [hg, if_neg hk] at ho'
    exact h.face k o ho'
  · show (fs.get p.faces.top).map _ = _
    rw [hg, if_pos rfl]; rfl
  · exact .inl ⟨hnil, rfl⟩
  · rw [hnil]; rfl
  · rw [hnil]; exact .nil

/-- Closing the rings of the face. -/
theorem close_ok {s : RingLoop P Q V E F} {f : Nat} {rings : List (List Nat)} {l : List ((Nat × Nat) × E)}
    (hb : Base s.plc) (hl : HasEdges s.plc l) (hok : (layerRing s.plc.faceEdges s.plc.rings).Ok)
    (hs : Rings s f rings) (hne : rings ≠ []) :
    ∃ rl rl', s.plc.rings.upd s.prevRing (fun x => { x with next := s.firstRing }) = some rl ∧
      rl.upd s.firstRing (fun x => { x with prev := s.prevRing }) = some rl' ∧
      Base { s.plc with rings := rl' } ∧ (layerRing s.plc.faceEdges rl').Ok ∧
      (layerFace rl' s.plc.faces).Ok ∧ rl'.top = s.plc.rings.top ∧
      (∀ k, faceMem { s.plc with rings := rl' } k = faceMem s.plc k) ∧
      Keeps s.plc.rings.top s.plc { s.plc with rings := rl' } := by
  have hmne : faceMem s.plc f ≠ [] := by
    intro h0
    have := hs.has
    rw [h0] at this
    exact hne (List.forall₂_nil_left_iff.1 this)
  obtain ⟨q, hq⟩ : ∃ q, faceMem s.plc f = q ++ [s.prevRing] := by
    have := hs.last
    obtain ⟨z, hz⟩ : ∃ z, (faceMem s.plc f).getLast? = some z := by
      cases h0 : (faceMem s.plc f).getLast? with
      | none => exact absurd (List.getLast?_eq_none_iff.1 h0) hmne
      | some z => exact ⟨z, rfl⟩
    rw [hz, Option.getD_some] at this
    rw [this]
    exact List.getLast?_eq_some_iff.1 hz
  have hopn : Open (layerFace s.plc.rings s.plc.faces).next (layerFace s.plc.rings s.plc.faces).prev
      s.firstRing (q ++ [s.prevRing]) := by rw [← hq]; exact hs.opn
  have hpm : s.prevRing ∈ faceMem s.plc f := by rw [hq]; simp
  have hfm : s.firstRing ∈ faceMem s.plc f := by rw [hq]; exact hopn.first
  have hpl : (s.plc.rings.get s.prevRing).isSome := hb.fr.live _ (Layer.lt_of_mem hpm)
  have hfl : (s.plc.rings.get s.firstRing).isSome := hb.fr.live _ (Layer.lt_of_mem hfm)
  have hcl := hopn.close (by rw [← hq]; exact Layer.nodup_mem _ _)
  set rl' := (s.plc.rings.modify s.prevRing fun x => { x with next := s.firstRing }).modify s.firstRing
    fun x => { x with prev := s.prevRing } with hrl'
  have kt : rl'.top = s.plc.rings.top := by rw [hrl', IdMap.top_modify, IdMap.top_modify]
  have kf : rl'.Full := (hb.fr.modify _ _).modify _ _
  have k1 : ∀ i, (rl'.get i).map (·.element) = (s.plc.rings.get i).map (·.element) := by
    intro i; rw [hrl', map_modify, map_modify] <;> intro _ <;> rfl
  have k2 : ∀ i, (rl'.get i).map (·.face) = (s.plc.rings.get i).map (·.face) := by
    intro i; rw [hrl', map_modify, map_modify] <;> intro _ <;> rfl
  have kn : (layerFace rl' s.plc.faces).next =
      Function.update (layerFace s.plc.rings s.plc.faces).next s.prevRing (some s.firstRing) := by
    simp only [layerFace, hrl']
    keepf; setf s.firstRing; rfl
  have kp : (layerFace rl' s.plc.faces).prev =
      Function.update (layerFace s.plc.rings s.plc.faces).prev s.firstRing (some s.prevRing) := by
    simp only [layerFace, hrl']
    setf s.prevRing; keepf; rfl
  have kmem : ∀ k, (layerFace rl' s.plc.faces).mem k = faceMem s.plc k := by
    intro k
    refine Layer.mem_congr (L := layerFace s.plc.rings s.plc.faces) kt ?_
    intro i _
    show (rl'.get i).map _ = _ ↔ (s.plc.rings.get i).map _ = _
    rw [k2]
  refine ⟨_, rl', IdMap.upd_eq _ hpl, IdMap.upd_eq _ (by rw [IdMap.isSome_modify]; exact hfl),
    hb.of_rings kf hb.fs kt (le_refl _) k1 k2, ?_, ?_, kt, kmem, ?_⟩
  · rw [layerRing_congr k1]; exact hok
  · intro k o ho
    have ho' : (layerFace s.plc.rings s.plc.faces).first k = some o := ho
    rw [kmem, kn, kp]
    by_cases hk : k = f
    · subst hk
      obtain rfl : s.firstRing = o := by rw [hs.fst] at ho'; exact Option.some.inj ho'
      rw [hq]
      exact hcl
    · have hdis : ∀ j ∈ faceMem s.plc f, j ∉ faceMem s.plc k := by
        intro j hj hj'
        have a := (Layer.mem_mem.1 hj).2
        rw [(Layer.mem_mem.1 hj').2] at a
        exact hk (Option.some.inj a)
      refine (hs.but k o hk ho').congr ?_ ?_
      · intro i hi
        rw [Function.update_of_ne]
        rintro rfl
        exact hdis _ hpm hi
      · intro i hi
        rw [Function.update_of_ne]
        rintro rfl
        exact hdis _ hfm hi
  · refine ⟨rfl, fun _ => rfl, fun _ => rfl, fun _ _ h => h, fun _ _ h => h, fun _ _ => rfl, ?_, rfl⟩
    intro r _ x hx
    exact (k1 r).trans hx

theorem Rep.addFace {g : Geom P Q} {d : E} {p p' : Plc P Q V E F} {c : Contents P V E F}
    {rings : List (List Nat)} {value : F} {id : Nat} (h : Rep g d p c)
    (hc : Plc.addFace g p rings value = some (p', id)) :
    Rep g d p' (c.apply d (.face rings value)) ∧ id = c.faces.length ∧
      c.allows (.face rings value : Op P V E F) := by
  unfold Plc.addFace at hc
  simp only [Option.bind_eq_bind] at hc
  obtain ⟨⟨fs, id'⟩, hi, hc⟩ := Option.bind_eq_some_iff.1 hc
  obtain ⟨s, hs, hc⟩ := Option.bind_eq_some_iff.1 hc
  obtain ⟨rl1, hr1, hc⟩ := Option.bind_eq_some_iff.1 hc
  obtain ⟨rl2, hr2, hc⟩ := Option.bind_eq_some_iff.1 hc
  obtain ⟨p2, hp2, hc⟩ := Option.bind_eq_some_iff.1 hc
  simp only [Option.pure_def, Option.some.injEq, Prod.mk.injEq] at hc
  obtain ⟨rfl, rfl⟩ := hc
  obtain ⟨hb0, hs0⟩ := face_start h hi
  obtain ⟨hid, hff, hft, -, hfg⟩ := h.base.fs.insert_some hi
  obtain ⟨hd, hall⟩ := rings_done (old := []) hb0 h.edges h.ring hs0 hs
  have hne : rings ≠ [] := by
    rintro rfl
    simp only [List.foldlM_nil, Option.pure_def, Option.some.injEq] at hs
    subst hs
    have := (IdMap.upd_some hr1).1
    rw [h.base.fr.get_max] at this
    cases this
  have hrs : Rings s id' rings := hd.rings
  obtain ⟨rl, rl', e1, e2, hb, hor, hof, kt, kmem, kk⟩ := close_ok hd.base hd.edges hd.ok hrs hne
  obtain rfl : rl = rl1 := by rw [e1] at hr1; exact Option.some.inj hr1
  obtain rfl : rl' = rl2 := by rw [e2] at hr2; exact Option.some.inj hr2
  have hkeep : Keeps p.rings.top { p with faces := fs } { s.plc with rings := rl' } :=
    hd.keeps.trans (kk.le (by rw [hd.rtop]; exact Nat.le_add_right _ _))
  have hvt : s.plc.vertices.top = p.vertices.top := hd.keeps.vtop
  have hhas : List.Forall₂ (RingHas { s.plc with rings := rl' }) (faceMem { s.plc with rings := rl' } id') rings := by
    rw [kmem]
    exact forall₂_imp (fun r vs hr hrv => hrv.keeps kk (Layer.lt_of_mem hr)) hrs.has
  have hftop : s.plc.faces.top = p.faces.top + 1 := hd.ftop.trans hft
  have hpos : ∀ v, (s.plc.vertices.get v).map (·.position) = c.pos v := by
    intro v
    rw [← h.pos]
    exact hd.keeps.position v
  rw [calcFacePlane_ok g hb hor hof (by rw [hid, hftop]; omega) hne hhas hpos] at hp2
  simp only [Option.some.injEq] at hp2
  subst hp2
  have hvl := h.vtop
  set pl := g.plane (rings.flatten.filterMap c.pos) ((rings.flatMap cyc).filterMap fun vs =>
        (c.pos vs.1).bind fun x => (c.pos vs.2).map fun y => (x, y)) with hpl
  have hlf : layerFace rl' (s.plc.faces.modify id' fun x => { x with plane := pl }) = layerFace rl' s.plc.faces := by
    simp only [layerFace]
    congr 1
    keepf; rfl
  have hidl : id' = c.faces.length := hid.trans h.ftop
  have hold : ∀ i x, c.faces[i]? = some x → i ≠ id' := by
    intro i x hx
    have := (List.getElem?_eq_some_iff.1 hx).1
    omega
  have hget : ∀ i, (c.faces ++ [(rings, value)])[i]? = if i = id' then some (rings, value) else c.faces[i]? := by
    intro i
    split
    · rename_i hi; rw [hi, hidl, List.getElem?_concat_length]
    · rename_i hi
      rcases Nat.lt_trichotomy i c.faces.length with hl | hl | hl
      · rw [List.getElem?_append_left hl]
      · omega
      · rw [List.getElem?_eq_none (by simp; omega), List.getElem?_eq_none (by omega)]
  have hall' : c.allows (.face rings value : Op P V E F) := by
    refine ⟨hne, fun vs hvs => ⟨(hall vs hvs).1, fun v hv => ?_⟩⟩
    have := (hall vs hvs).2 v hv
    rwa [show ({ p with faces := fs } : Plc P Q V E F).vertices.top = c.vertices.length from hvl] at this
  refine ⟨⟨hb.of_rings (rl := rl') hb.fr (hb.fs.modify _ _) rfl (by rw [IdMap.top_modify]) (fun _ => rfl) fun _ => rfl,
    hor, ?_, hd.keeps.default.trans h.default, ?_, ?_, ?_, ?_, ?_, ?_, ?_, ?_⟩, hidl, hall'⟩
  · show (layerFace rl' (s.plc.faces.modify id' _)).Ok
    rw [hlf]; exact hof
  · intro i
    show (s.plc.vertices.get i).map _ = c.vertices[i]?
    rw [← h.vertices i]
    have h1 : (s.plc.vertices.get i).map (·.position) = (p.vertices.get i).map (·.position) := hd.keeps.position i
    have h2 : (s.plc.vertices.get i).map (·.value) = (p.vertices.get i).map (·.value) := hd.keeps.value i
    cases ha : s.plc.vertices.get i <;> cases hb : p.vertices.get i <;> simp_all
  · have := hd.edges
    rw [show ({ p with faces := fs } : Plc P Q V E F).defaultEdge = d from h.default] at this
    exact this
  · intro i
    show ((s.plc.faces.modify id' _).get i).map _ = ((c.faces ++ [(rings, value)])[i]?).map _
    rw [map_modify]
    on_goal 2 => (intro _; rfl)
    rw [hd.value i, hget]
    show (fs.get i).map _ = _
    rw [hfg, ← hid]
    split
    · rfl
    · exact h.value i
  · intro i x hx
    have hx' : (c.faces ++ [(rings, value)])[i]? = some x := hx
    rw [hget] at hx'
    show List.Forall₂ (RingHas { s.plc with rings := rl' })
      ((layerFace rl' (s.plc.faces.modify id' fun x => { x with plane := pl })).mem i) x.1
    rw [hlf]
    split at hx'
    · rename_i hi
      obtain rfl := Option.some.inj hx'
      rw [hi]
      exact hhas
    · rename_i hi
      have : (layerFace rl' s.plc.faces).mem i = faceMem p i := by
        rw [show (layerFace rl' s.plc.faces).mem i = _ from kmem i, hd.mem i hi]
        rfl
      rw [this]
      refine forall₂_imp (fun r vs hr hrv => ?_) (h.has i x hx')
      have hrv' : RingHas { p with faces := fs } r vs := hrv
      exact hrv'.keeps hkeep (Layer.lt_of_mem hr)
  · intro i
    show ((s.plc.faces.modify id' _).get i).map _ = ((c.faces ++ [(rings, value)])[i]?).map _
    rw [hget]
    by_cases hi : i = id'
    · rw [if_pos hi, hi, IdMap.get_modify, if_pos rfl]
      obtain ⟨y, hy⟩ := hd.base.fs.exists (i := id') (by rw [hid, hftop]; omega)
      rw [hy]
      rfl
    · rw [if_neg hi, IdMap.get_modify, if_neg hi, hd.plane i]
      show (fs.get i).map _ = _
      rw [hfg, ← hid, if_neg hi]
      exact h.plane i
  · intro x hx
    have hx' : x ∈ c.faces ++ [(rings, value)] := hx
    rcases List.mem_append.1 hx' with hx | hx
    · exact h.allowed x hx
    · obtain rfl := List.mem_singleton.1 hx
      exact hall'
  · show rl'.top = ((c.faces ++ [(rings, value)]).flatMap Prod.fst).length
    rw [kt, hd.rtop]
    show p.rings.top + _ = _
    rw [h.rtop, List.flatMap_append, List.length_append]
    simp [Contents.rings]
  · show s.plc.faceEdges.top ≤ ((c.faces ++ [(rings, value)]).flatMap Prod.fst).flatten.length
    have a := hd.fetop
    have b := h.fetop
    have a' : s.plc.faceEdges.top ≤ p.faceEdges.top + rings.flatten.length := a
    rw [List.flatMap_append, List.flatten_append, List.length_append]
    have : ([(rings, value)] : List (List (List Nat) × F)).flatMap Prod.fst = rings := by simp
    rw [this]
    exact a'.trans (Nat.add_le_add_right b _)

theorem addFace_isSome {g : Geom P Q} {d : E} {p : Plc P Q V E F} {c : Contents P V E F}
    {rings : List (List Nat)} {value : F} (h : Rep g d p c) (ha : c.allows (.face rings value : Op P V E F))
    (hr : c.room (.face rings value : Op P V E F)) : (Plc.addFace g p rings value).isSome := by
  obtain ⟨hne, hall⟩ := ha
  obtain ⟨r1, r2, r3, r4⟩ := hr
  obtain ⟨fs, hi⟩ := h.base.fs.insert (by rw [h.ftop]; exact r1) ⟨idMax, g.initial, value⟩
  obtain ⟨hb0, hs0⟩ := face_start h hi
  obtain ⟨s, hs⟩ := rings_run (old := []) (new := rings) hb0 h.edges h.ring hs0 (by
    intro vs hvs
    refine ⟨(hall vs hvs).1, fun v hv => ?_⟩
    show v < p.vertices.top
    rw [h.vtop]; exact (hall vs hvs).2 v hv)
    (by show p.rings.top + _ ≤ _; rw [h.rtop]; exact r2)
    (by show p.edges.top + _ ≤ _; rw [h.etop]; exact r3)
    (by show p.faceEdges.top + _ ≤ _; have := h.fetop; omega)
  obtain ⟨hd, -⟩ := rings_done (old := []) hb0 h.edges h.ring hs0 hs
  obtain ⟨hid, hff, hft, -, hfg⟩ := h.base.fs.insert_some hi
  have hrs : Rings s p.faces.top rings := hd.rings
  obtain ⟨rl, rl', e1, e2, hb, hor, hof, kt, kmem, kk⟩ := close_ok hd.base hd.edges hd.ok hrs hne
  have hhas : List.Forall₂ (RingHas { s.plc with rings := rl' }) (faceMem { s.plc with rings := rl' } p.faces.top) rings := by
    rw [kmem]
    exact forall₂_imp (fun r vs hr hrv => hrv.keeps kk (Layer.lt_of_mem hr)) hrs.has
  have hftop : s.plc.faces.top = p.faces.top + 1 := hd.ftop.trans hft
  have := calcFacePlane_ok g hb hor hof (by show _ < s.plc.faces.top; omega) hne hhas fun _ => rfl
  simp only [Plc.addFace, Option.bind_eq_bind, hi, Option.bind_some, hs, e1, e2, this]
  rfl

theorem addVertex_isSome {g : Geom P Q} {d : E} {p : Plc P Q V E F} {c : Contents P V E F} {pos : P} {value : V}
    (h : Rep g d p c) (hr : c.vertices.length < idMax) : (p.addVertex pos value).isSome := by
  obtain ⟨vl, hi⟩ := h.base.fv.insert (by rw [h.vtop]; exact hr) (Vertex.new pos value)
  simp only [Plc.addVertex, Option.bind_eq_bind, hi]
  rfl

/-! ## All calls -/

theorem Rep.call {g : Geom P Q} {d : E} {p p' : Plc P Q V E F} {c : Contents P V E F} {op : Op P V E F} {id : Nat}
    (h : Rep g d p c) (hc : PlcSpec.call g p op = some (p', id)) :
    Rep g d p' (c.apply d op) ∧ id = c.result op ∧ c.allows op := by
  cases op with
  | vertex pos value =>
    obtain ⟨h1, h2⟩ := h.addVertex hc
    exact ⟨h1, h2, trivial⟩
  | edge vs value => exact h.addEdge hc
  | edgeIfAbsent vs value => exact h.addEdgeIfAbsent hc
  | face rings value => exact h.addFace hc

theorem call_isSome {g : Geom P Q} {d : E} {p : Plc P Q V E F} {c : Contents P V E F} {op : Op P V E F}
    (h : Rep g d p c) (ha : c.allows op) (hr : c.room op) : (PlcSpec.call g p op).isSome := by
  cases op with
  | vertex pos value => exact addVertex_isSome h hr
  | edge vs value => exact addEdge_isSome h ha hr
  | edgeIfAbsent vs value => exact addEdgeIfAbsent_isSome h ha hr
  | face rings value => exact addFace_isSome h ha hr

theorem rep_calls {g : Geom P Q} {d : E} {p p' : Plc P Q V E F} {c : Contents P V E F} {ops : List (Op P V E F)}
    (h : Rep g d p c) (hc : Calls g p ops p') : Rep g d p' (ops.foldl (Contents.apply d) c) := by
  induction hc with
  | nil => exact h
  | snoc _ h2 ih =>
    rw [List.foldl_append]
    exact (ih.call h2).1

end Tet.Plc
