import Verif.Proofs.PlcMaps

/-!
# Adding edges to a `Plc`
-/

namespace Tet.Plc
open Linked
variable {P Q V E F : Type}

/-- The vertices, up to the first edges. -/
structure SameV (vl vl' : IdMap (Vertex P V)) : Prop where
  full : vl.Full → vl'.Full
  top : vl'.top = vl.top
  position : ∀ v, (vl'.get v).map (·.position) = (vl.get v).map (·.position)
  value : ∀ v, (vl'.get v).map (·.value) = (vl.get v).map (·.value)
  ring : ∀ v, (vl'.get v).map (·.ring) = (vl.get v).map (·.ring)

/-- The edges, up to the links at the vertices. -/
structure SameE (el el' : IdMap (Edge E)) : Prop where
  full : el.Full → el'.Full
  top : el'.top = el.top
  vertices : ∀ e, (el'.get e).map (·.vertices) = (el.get e).map (·.vertices)
  value : ∀ e, (el'.get e).map (·.value) = (el.get e).map (·.value)
  faceEdge : ∀ e, (el'.get e).map (·.faceEdge) = (el.get e).map (·.faceEdge)

theorem SameV.rfl {vl : IdMap (Vertex P V)} : SameV vl vl :=
  ⟨id, Eq.refl _, fun _ => Eq.refl _, fun _ => Eq.refl _, fun _ => Eq.refl _⟩

theorem SameV.trans {a b c : IdMap (Vertex P V)} (h : SameV a b) (h' : SameV b c) : SameV a c :=
  ⟨h'.full ∘ h.full, h'.top.trans h.top, fun v => (h'.position v).trans (h.position v),
    fun v => (h'.value v).trans (h.value v), fun v => (h'.ring v).trans (h.ring v)⟩

theorem SameE.rfl {el : IdMap (Edge E)} : SameE el el :=
  ⟨id, Eq.refl _, fun _ => Eq.refl _, fun _ => Eq.refl _, fun _ => Eq.refl _⟩

theorem SameE.trans {a b c : IdMap (Edge E)} (h : SameE a b) (h' : SameE b c) : SameE a c :=
  ⟨h'.full ∘ h.full, h'.top.trans h.top, fun v => (h'.vertices v).trans (h.vertices v),
    fun v => (h'.value v).trans (h.value v), fun v => (h'.faceEdge v).trans (h.faceEdge v)⟩

theorem SameE.modify (el : IdMap (Edge E)) (k : Nat) (f : Edge E → Edge E)
    (h1 : ∀ x, (f x).vertices = x.vertices) (h2 : ∀ x, (f x).value = x.value)
    (h3 : ∀ x, (f x).faceEdge = x.faceEdge) : SameE el (el.modify k f) :=
  ⟨fun h => h.modify k f, IdMap.top_modify _ _ _, map_modify _ _ _ _ h1, map_modify _ _ _ _ h2,
    map_modify _ _ _ _ h3⟩

theorem SameV.modify (vl : IdMap (Vertex P V)) (k : Nat) (f : Vertex P V → Vertex P V)
    (h1 : ∀ x, (f x).position = x.position) (h2 : ∀ x, (f x).value = x.value)
    (h3 : ∀ x, (f x).ring = x.ring) : SameV vl (vl.modify k f) :=
  ⟨fun h => h.modify k f, IdMap.top_modify _ _ _, map_modify _ _ _ _ h1, map_modify _ _ _ _ h2,
    map_modify _ _ _ _ h3⟩

/-- Goes on to a field that the last modification does not touch. -/
macro "keepf" : tactic =>
  `(tactic| (rewrite [map_modify']; on_goal 2 => (intro _; rfl)))

/-- Goes on to a field that the last modification sets. -/
macro "setf" b:term : tactic =>
  `(tactic| (rewrite [map_modify_set (b := $b)]; on_goal 2 => (intro _; rfl)
             on_goal 2 => ((try simp only [IdMap.isSome_modify]); assumption)))

theorem link_cases {L L' : Layer} {k id : Nat} (h : L.link k id = some L') :
    ∃ o, L.first k = some o ∧
      ((o = idMax ∧ L' = { L with
          first := Function.update L.first k (some id)
          next := Function.update L.next id (some id)
          prev := Function.update L.prev id (some id) }) ∨
       (o ≠ idMax ∧ ∃ q, L.prev o = some q ∧ L' = { L with
          next := Function.update (Function.update L.next q (some id)) id (some o)
          prev := Function.update (Function.update L.prev o (some id)) id (some q) })) := by
  unfold Layer.link at h
  split at h
  · cases h
  rename_i o ho
  refine ⟨o, ho, ?_⟩
  split at h
  · rename_i hm
    exact .inl ⟨hm, (Option.some.inj h).symm⟩
  · rename_i hm
    split at h
    · cases h
    rename_i q hq
    exact .inr ⟨hm, q, hq, (Option.some.inj h).symm⟩

theorem linkOut_ok {vl : IdMap (Vertex P V)} {el : IdMap (Edge E)} {v id : Nat} {L : Layer}
    (h : (layerOut vl el).link v id = some L) (hid : (el.get id).isSome)
    (hlive : ∀ o q, (layerOut vl el).first v = some o → (layerOut vl el).prev o = some q →
      (el.get q).isSome) :
    ∃ vl' el', linkOut vl el v id = some (vl', el') ∧ layerOut vl' el' = L ∧
      layerIn vl' el' = layerIn vl el ∧ SameV vl vl' ∧ SameE el el' := by
  obtain ⟨o, ho, ⟨rfl, rfl⟩ | ⟨hne, q, hq, rfl⟩⟩ := link_cases h
  · obtain ⟨x, hx, hxo⟩ := Option.map_eq_some_iff.1 ho
    have hvl : (vl.get v).isSome := by simp [hx]
    refine ⟨vl.modify v fun x => { x with edgeOut := id },
      (el.modify id fun x => { x with nextOut := id }).modify id fun x => { x with prevOut := id },
      ?_, ?_, ?_, ?_, ?_⟩
    · simp only [linkOut, hx, hxo, Option.bind_eq_bind, Option.bind_some, if_true]
      rw [IdMap.upd_eq _ (by simp [hx]), Option.bind_some, IdMap.upd_eq _ hid, Option.bind_some,
        IdMap.upd_eq _ (by rw [IdMap.isSome_modify]; exact hid)]
      rfl
    · simp only [layerOut, IdMap.top_modify]
      congr 1
      · keepf; keepf; rfl
      · keepf; setf id; rfl
      · setf id; keepf; rfl
      · setf id; rfl
    · simp only [layerIn, IdMap.top_modify]
      congr 1
      · keepf; keepf; rfl
      · keepf; keepf; rfl
      · keepf; keepf; rfl
      · keepf; rfl
    · apply SameV.modify <;> intro _ <;> rfl
    · refine SameE.trans (SameE.modify _ _ _ ?_ ?_ ?_) (SameE.modify _ _ _ ?_ ?_ ?_) <;> intro _ <;> rfl
  · obtain ⟨x, hx, hxo⟩ := Option.map_eq_some_iff.1 ho
    have hql := hlive o q ho hq
    obtain ⟨y, hy, hyq⟩ := Option.map_eq_some_iff.1 hq
    have hol : (el.get o).isSome := by simp [hy]
    refine ⟨vl,
      (((el.modify q fun x => { x with nextOut := id }).modify o fun x => { x with prevOut := id }).modify
        id fun x => { x with nextOut := o }).modify id fun x => { x with prevOut := q },
      ?_, ?_, ?_, SameV.rfl, ?_⟩
    · simp only [linkOut, hx, hxo, Option.bind_eq_bind, Option.bind_some, if_neg hne, hy, hyq]
      rw [IdMap.upd_eq _ hql, Option.bind_some,
        IdMap.upd_eq _ (by rw [IdMap.isSome_modify]; exact hol), Option.bind_some,
        IdMap.upd_eq _ (by rw [IdMap.isSome_modify, IdMap.isSome_modify]; exact hid), Option.bind_some,
        IdMap.upd_eq _ (by rw [IdMap.isSome_modify, IdMap.isSome_modify, IdMap.isSome_modify]; exact hid)]
      rfl
    · simp only [layerOut, IdMap.top_modify]
      congr 1
      · keepf; keepf; keepf; keepf; rfl
      · keepf; setf o; keepf; setf id; rfl
      · setf q; keepf; setf id; keepf; rfl
    · simp only [layerIn, IdMap.top_modify]
      congr 1
      all_goals (keepf; keepf; keepf; keepf; rfl)
    · refine ((SameE.trans (SameE.modify _ _ _ ?_ ?_ ?_) (SameE.modify _ _ _ ?_ ?_ ?_)).trans
        (SameE.modify _ _ _ ?_ ?_ ?_)).trans (SameE.modify _ _ _ ?_ ?_ ?_) <;> intro _ <;> rfl

theorem linkIn_ok {vl : IdMap (Vertex P V)} {el : IdMap (Edge E)} {v id : Nat} {L : Layer}
    (h : (layerIn vl el).link v id = some L) (hid : (el.get id).isSome)
    (hlive : ∀ o q, (layerIn vl el).first v = some o → (layerIn vl el).prev o = some q →
      (el.get q).isSome) :
    ∃ vl' el', linkIn vl el v id = some (vl', el') ∧ layerIn vl' el' = L ∧
      layerOut vl' el' = layerOut vl el ∧ SameV vl vl' ∧ SameE el el' := by
  obtain ⟨o, ho, ⟨rfl, rfl⟩ | ⟨hne, q, hq, rfl⟩⟩ := link_cases h
  · obtain ⟨x, hx, hxo⟩ := Option.map_eq_some_iff.1 ho
    have hvl : (vl.get v).isSome := by simp [hx]
    refine ⟨vl.modify v fun x => { x with edgeIn := id },
      (el.modify id fun x => { x with nextIn := id }).modify id fun x => { x with prevIn := id },
      ?_, ?_, ?_, ?_, ?_⟩
    · simp only [linkIn, hx, hxo, Option.bind_eq_bind, Option.bind_some, if_true]
      rw [IdMap.upd_eq _ (by simp [hx]), Option.bind_some, IdMap.upd_eq _ hid, Option.bind_some,
        IdMap.upd_eq _ (by rw [IdMap.isSome_modify]; exact hid)]
      rfl
    · simp only [layerIn, IdMap.top_modify]
      congr 1
      · keepf; keepf; rfl
      · keepf; setf id; rfl
      · setf id; keepf; rfl
      · setf id; rfl
    · simp only [layerOut, IdMap.top_modify]
      congr 1
      · keepf; keepf; rfl
      · keepf; keepf; rfl
      · keepf; keepf; rfl
      · keepf; rfl
    · apply SameV.modify <;> intro _ <;> rfl
    · refine SameE.trans (SameE.modify _ _ _ ?_ ?_ ?_) (SameE.modify _ _ _ ?_ ?_ ?_) <;> intro _ <;> rfl
  · obtain ⟨x, hx, hxo⟩ := Option.map_eq_some_iff.1 ho
    have hql := hlive o q ho hq
    obtain ⟨y, hy, hyq⟩ := Option.map_eq_some_iff.1 hq
    have hol : (el.get o).isSome := by simp [hy]
    refine ⟨vl,
      (((el.modify q fun x => { x with nextIn := id }).modify o fun x => { x with prevIn := id }).modify
        id fun x => { x with nextIn := o }).modify id fun x => { x with prevIn := q },
      ?_, ?_, ?_, SameV.rfl, ?_⟩
    · simp only [linkIn, hx, hxo, Option.bind_eq_bind, Option.bind_some, if_neg hne, hy, hyq]
      rw [IdMap.upd_eq _ hql, Option.bind_some,
        IdMap.upd_eq _ (by rw [IdMap.isSome_modify]; exact hol), Option.bind_some,
        IdMap.upd_eq _ (by rw [IdMap.isSome_modify, IdMap.isSome_modify]; exact hid), Option.bind_some,
        IdMap.upd_eq _ (by rw [IdMap.isSome_modify, IdMap.isSome_modify, IdMap.isSome_modify]; exact hid)]
      rfl
    · simp only [layerIn, IdMap.top_modify]
      congr 1
      · keepf; keepf; keepf; keepf; rfl
      · keepf; setf o; keepf; setf id; rfl
      · setf q; keepf; setf id; keepf; rfl
    · simp only [layerOut, IdMap.top_modify]
      congr 1
      all_goals (keepf; keepf; keepf; keepf; rfl)
    · refine ((SameE.trans (SameE.modify _ _ _ ?_ ?_ ?_) (SameE.modify _ _ _ ?_ ?_ ?_)).trans
        (SameE.modify _ _ _ ?_ ?_ ?_)).trans (SameE.modify _ _ _ ?_ ?_ ?_) <;> intro _ <;> rfl

/-- The edges, up to their first face edges. -/
structure SameD (el el' : IdMap (Edge E)) : Prop where
  full : el.Full → el'.Full
  top : el'.top = el.top
  vertices : ∀ e, (el'.get e).map (·.vertices) = (el.get e).map (·.vertices)
  value : ∀ e, (el'.get e).map (·.value) = (el.get e).map (·.value)
  out : ∀ vl : IdMap (Vertex P V), layerOut vl el' = layerOut vl el
  inn : ∀ vl : IdMap (Vertex P V), layerIn vl el' = layerIn vl el

/-- The face edges, up to the links on their edges. -/
structure SameL (fl fl' : IdMap FaceEdge) : Prop where
  full : fl.Full → fl'.Full
  top : fl'.top = fl.top
  edge : ∀ e, (fl'.get e).map (·.edge) = (fl.get e).map (·.edge)
  ring : ∀ e, (fl'.get e).map (·.ring) = (fl.get e).map (·.ring)
  next : ∀ e, (fl'.get e).map (·.next) = (fl.get e).map (·.next)
  prev : ∀ e, (fl'.get e).map (·.prev) = (fl.get e).map (·.prev)

theorem SameL.trans {a b c : IdMap FaceEdge} (h : SameL a b) (h' : SameL b c) : SameL a c :=
  ⟨h'.full ∘ h.full, h'.top.trans h.top, fun v => (h'.edge v).trans (h.edge v),
    fun v => (h'.ring v).trans (h.ring v), fun v => (h'.next v).trans (h.next v),
    fun v => (h'.prev v).trans (h.prev v)⟩

theorem SameL.modify (fl : IdMap FaceEdge) (k : Nat) (f : FaceEdge → FaceEdge)
    (h1 : ∀ x, (f x).edge = x.edge) (h2 : ∀ x, (f x).ring = x.ring)
    (h3 : ∀ x, (f x).next = x.next) (h4 : ∀ x, (f x).prev = x.prev) : SameL fl (fl.modify k f) :=
  ⟨fun h => h.modify k f, IdMap.top_modify _ _ _, map_modify _ _ _ _ h1, map_modify _ _ _ _ h2,
    map_modify _ _ _ _ h3, map_modify _ _ _ _ h4⟩

theorem SameL.layerRing {fl fl' : IdMap FaceEdge} (h : SameL fl fl') (rl : IdMap FaceRing) :
    layerRing fl' rl = layerRing fl rl := by
  simp only [Plc.layerRing, h.top]
  congr 1
  · exact funext h.ring
  · exact funext h.next
  · exact funext h.prev

theorem SameD.rfl {el : IdMap (Edge E)} : SameD (P := P) (V := V) el el :=
  ⟨id, Eq.refl _, fun _ => Eq.refl _, fun _ => Eq.refl _, fun _ => Eq.refl _, fun _ => Eq.refl _⟩

theorem linkOn_ok {el : IdMap (Edge E)} {fl : IdMap FaceEdge} {edge fe : Nat} {L : Layer}
    (h : (layerOn el fl).link edge fe = some L) (hid : (fl.get fe).isSome)
    (hlive : ∀ o q, (layerOn el fl).first edge = some o → (layerOn el fl).prev o = some q →
      (fl.get q).isSome) :
    ∃ el' fl', linkOn el fl edge fe = some (el', fl') ∧ layerOn el' fl' = L ∧
      SameD (P := P) (V := V) el el' ∧ SameL fl fl' := by
  obtain ⟨o, ho, ⟨rfl, rfl⟩ | ⟨hne, q, hq, rfl⟩⟩ := link_cases h
  · obtain ⟨x, hx, hxo⟩ := Option.map_eq_some_iff.1 ho
    have hel : (el.get edge).isSome := by simp [hx]
    refine ⟨el.modify edge fun x => { x with faceEdge := fe },
      (fl.modify fe fun x => { x with nextOn := fe }).modify fe fun x => { x with prevOn := fe },
      ?_, ?_, ?_, ?_⟩
    · simp only [linkOn, hx, hxo, Option.bind_eq_bind, Option.bind_some, if_true]
      rw [IdMap.upd_eq _ (by simp [hx]), Option.bind_some, IdMap.upd_eq _ hid, Option.bind_some,
        IdMap.upd_eq _ (by rw [IdMap.isSome_modify]; exact hid)]
      rfl
    · simp only [layerOn, IdMap.top_modify]
      congr 1
      · keepf; keepf; rfl
      · keepf; setf fe; rfl
      · setf fe; keepf; rfl
      · setf fe; rfl
    · refine ⟨fun h => h.modify _ _, IdMap.top_modify _ _ _, map_modify _ _ _ _ ?_,
        map_modify _ _ _ _ ?_, fun vl => ?_, fun vl => ?_⟩
      · intro _; rfl
      · intro _; rfl
      · simp only [layerOut, IdMap.top_modify]
        congr 1 <;> (keepf; rfl)
      · simp only [layerIn, IdMap.top_modify]
        congr 1 <;> (keepf; rfl)
    · refine SameL.trans (SameL.modify _ _ _ ?_ ?_ ?_ ?_) (SameL.modify _ _ _ ?_ ?_ ?_ ?_) <;>
        intro _ <;> rfl
  · obtain ⟨x, hx, hxo⟩ := Option.map_eq_some_iff.1 ho
    have hql := hlive o q ho hq
    obtain ⟨y, hy, hyq⟩ := Option.map_eq_some_iff.1 hq
    have hol : (fl.get o).isSome := by simp [hy]
    refine ⟨el,
      (((fl.modify o fun x => { x with prevOn := fe }).modify q fun x => { x with nextOn := fe }).modify
        fe fun x => { x with nextOn := o }).modify fe fun x => { x with prevOn := q },
      ?_, ?_, SameD.rfl, ?_⟩
    · simp only [linkOn, hx, hxo, Option.bind_eq_bind, Option.bind_some, if_neg hne, hy, hyq]
      rw [IdMap.upd_eq _ hol, Option.bind_some,
        IdMap.upd_eq _ (by rw [IdMap.isSome_modify]; exact hql), Option.bind_some,
        IdMap.upd_eq _ (by rw [IdMap.isSome_modify, IdMap.isSome_modify]; exact hid), Option.bind_some,
        IdMap.upd_eq _ (by rw [IdMap.isSome_modify, IdMap.isSome_modify, IdMap.isSome_modify]; exact hid)]
      rfl
    · simp only [layerOn, IdMap.top_modify]
      congr 1
      · keepf; keepf; keepf; keepf; rfl
      · keepf; setf o; setf fe; keepf; rfl
      · setf q; keepf; keepf; setf fe; rfl
    · refine ((SameL.trans (SameL.modify _ _ _ ?_ ?_ ?_ ?_) (SameL.modify _ _ _ ?_ ?_ ?_ ?_)).trans
        (SameL.modify _ _ _ ?_ ?_ ?_ ?_)).trans (SameL.modify _ _ _ ?_ ?_ ?_ ?_) <;> intro _ <;> rfl

end Tet.Plc
