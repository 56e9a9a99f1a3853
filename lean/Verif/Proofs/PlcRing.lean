import Verif.Proofs.PlcBase

/-!
# Adding a ring to a `Plc`
-/

namespace Tet.Plc
open Linked PlcSpec
variable {P Q V E F : Type}

theorem addEdgeIfAbsent_ok {p : Plc P Q V E F} {l : List ((Nat × Nat) × E)} {vs : Nat × Nat}
    (value : E) (hb : Base p) (hl : HasEdges p l) (h1 : vs.1 < p.vertices.top)
    (h2 : vs.2 < p.vertices.top) (hroom : p.edges.top < idMax ∨ (p.edgeMap vs).isSome) :
    ∃ p' e, p.addEdgeIfAbsent vs value = some (p', e) ∧ Base p' ∧ HasEdges p' (putNew l vs value) ∧
      OnlyEdges p p' ∧ p'.edgeMap vs = some e ∧ p.edges.top ≤ p'.edges.top ∧
      p'.edges.top ≤ p.edges.top + 1 ∧ (e = (l.map Prod.fst).idxOf vs) ∧
      ∀ e ws, (p.edges.get e).map (·.vertices) = some ws → (p'.edges.get e).map (·.vertices) = some ws := by
  cases h0 : p.edgeMap vs with
  | none =>
    have hr : p.edges.top < idMax := by
      rcases hroom with h | h
      · exact h
      · rw [h0] at h; cases h
    obtain ⟨p', hp', hb', hl', ho, hm, ht, hv⟩ := addVacant_ok value hb hl h0 h1 h2 hr
    have hnm : vs ∉ l.map Prod.fst := by rw [hl.mem hb, h0]; simp
    refine ⟨p', _, by rw [addEdgeIfAbsent, h0]; exact hp', hb', ?_, ho, hm, by omega, by omega, ?_, ?_⟩
    · rw [putNew, if_neg hnm]; exact hl'
    · rw [List.idxOf_eq_length hnm, List.length_map, hl.length hb]
    · intro e ws he
      rw [hv e, he]
      obtain ⟨x, hx, -⟩ := Option.map_eq_some_iff.1 he
      exact IdMap.lt_top hx
  | some e =>
    have hm : vs ∈ l.map Prod.fst := by rw [hl.mem hb, h0]; simp
    refine ⟨p, e, by rw [addEdgeIfAbsent, h0], hb, ?_, ⟨SameV.rfl, rfl, rfl, rfl, rfl⟩, h0, le_refl _, by omega,
      hl.edgeMap hb h0, fun _ _ h => h⟩
    rw [putNew, if_pos hm]; exact hl

theorem addEdgeIfAbsent_some {p p' : Plc P Q V E F} {vs : Nat × Nat} {value : E} {e : Nat} (hb : Base p)
    (h : p.addEdgeIfAbsent vs value = some (p', e)) :
    vs.1 < p.vertices.top ∧ vs.2 < p.vertices.top ∧ (p.edges.top < idMax ∨ (p.edgeMap vs).isSome) := by
  unfold addEdgeIfAbsent at h
  split at h
  · obtain ⟨h1, h2, h3⟩ := addVacant_some hb h
    exact ⟨h1, h2, .inl h3⟩
  · rename_i e' he
    obtain ⟨h1, h2⟩ := hb.ends e' vs ((hb.edgeMap vs e').1 he)
    exact ⟨h1, h2, .inr (by rw [he]; rfl)⟩

/-- The end points of the edge of a face edge. -/
def endsOf (p : Plc P Q V E F) (fe : Nat) : Option (Nat × Nat) :=
  (p.faceEdges.get fe).bind fun x => (p.edges.get x.edge).map (·.vertices)

/-- The face edges of a ring. -/
def ringMem (p : Plc P Q V E F) (r : Nat) : List Nat := (layerRing p.faceEdges p.rings).mem r

/-- The rings of a face. -/
def faceMem (p : Plc P Q V E F) (f : Nat) : List Nat := (layerFace p.rings p.faces).mem f

/-- A ring under construction. -/
structure Cyc (p : Plc P Q V E F) (r first prev : Nat) (pairs : List (Nat × Nat)) : Prop where
  but : (layerRing p.faceEdges p.rings).OkBut r
  fst : (layerRing p.faceEdges p.rings).first r = some first
  opn : Open (layerRing p.faceEdges p.rings).next (layerRing p.faceEdges p.rings).prev first (ringMem p r)
  last : prev = (ringMem p r).getLast?.getD idMax
  pairs : (ringMem p r).map (endsOf p) = pairs.map some

/-- What stays when something is added: vertices, edges, face edges, and the first `nr` rings. -/
structure Keeps (nr : Nat) (p p' : Plc P Q V E F) : Prop where
  vtop : p'.vertices.top = p.vertices.top
  position : ∀ v, (p'.vertices.get v).map (·.position) = (p.vertices.get v).map (·.position)
  value : ∀ v, (p'.vertices.get v).map (·.value) = (p.vertices.get v).map (·.value)
  vertices : ∀ e vs, (p.edges.get e).map (·.vertices) = some vs → (p'.edges.get e).map (·.vertices) = some vs
  edge : ∀ i e, (p.faceEdges.get i).map (·.edge) = some e → (p'.faceEdges.get i).map (·.edge) = some e
  mem : ∀ r < nr, ringMem p' r = ringMem p r
  element : ∀ r < nr, ∀ x, (p.rings.get r).map (·.element) = some x → (p'.rings.get r).map (·.element) = some x
  default : p'.defaultEdge = p.defaultEdge

theorem Keeps.rfl {nr : Nat} {p : Plc P Q V E F} : Keeps nr p p :=
  ⟨Eq.refl _, fun _ => Eq.refl _, fun _ => Eq.refl _, fun _ _ h => h, fun _ _ h => h,
    fun _ _ => Eq.refl _, fun _ _ _ h => h, Eq.refl _⟩

theorem Keeps.trans {nr : Nat} {p q r : Plc P Q V E F} (h : Keeps nr p q) (h' : Keeps nr q r) :
    Keeps nr p r :=
  ⟨h'.vtop.trans h.vtop, fun v => (h'.position v).trans (h.position v),
    fun v => (h'.value v).trans (h.value v), fun e vs x => h'.vertices e vs (h.vertices e vs x),
    fun i e x => h'.edge i e (h.edge i e x), fun r hr => (h'.mem r hr).trans (h.mem r hr),
    fun r hr x hx => h'.element r hr x (h.element r hr x hx), h'.default.trans h.default⟩

theorem Keeps.le {m n : Nat} {p q : Plc P Q V E F} (h : Keeps n p q) (hm : m ≤ n) : Keeps m p q :=
  { h with
    mem := fun r hr => h.mem r (by omega)
    element := fun r hr => h.element r (by omega) }

theorem Keeps.endsOf {nr : Nat} {p p' : Plc P Q V E F} (h : Keeps nr p p') {i : Nat} {vs : Nat × Nat}
    (hi : endsOf p i = some vs) : Plc.endsOf p' i = some vs := by
  unfold Plc.endsOf at hi ⊢
  obtain ⟨x, hx, he⟩ := Option.bind_eq_some_iff.1 hi
  obtain ⟨y, hy, hye⟩ := Option.map_eq_some_iff.1 (h.edge i x.edge (by rw [hx]; exact Eq.refl _))
  rw [hy, Option.bind_some, hye]
  exact h.vertices _ _ he

theorem Keeps.map_endsOf {nr : Nat} {p p' : Plc P Q V E F} (h : Keeps nr p p') {l : List Nat}
    {vss : List (Nat × Nat)} (hi : l.map (Plc.endsOf p) = vss.map some) :
    l.map (Plc.endsOf p') = vss.map some := by
  rw [← hi]
  apply List.map_congr_left
  intro i hil
  have : Plc.endsOf p i ∈ vss.map some := by rw [← hi]; exact List.mem_map_of_mem hil
  obtain ⟨vs, -, hvs⟩ := List.mem_map.1 this
  rw [← hvs]
  exact h.endsOf hvs.symm

theorem isoRings_congr {rl rl' : IdMap FaceRing} (ht : rl'.top = rl.top) {v : Nat}
    (h : ∀ r, (rl'.get r).map (·.element) = some (.vertex v) ↔ (rl.get r).map (·.element) = some (.vertex v)) :
    isoRings rl' v = isoRings rl v := by
  rw [isoRings, ht, isoRings]
  exact List.filter_congr fun r _ => by simp only [h r]

theorem fe_isSome {rl : IdMap FaceRing} {r : Nat} :
    ((rl.get r).bind FaceRing.fe).isSome ↔ ∃ x fe, rl.get r = some x ∧ x.element = .faceEdge fe := by
  cases hx : rl.get r with
  | none => simp
  | some x =>
    simp only [Option.bind_some, FaceRing.fe]
    cases he : x.element <;> simp [he]

/-- The face edges with one more. -/
theorem edgeStep_ok {s : EdgeLoop P Q V E F} {l : List ((Nat × Nat) × E)} {r v : Nat}
    {pairs : List (Nat × Nat)} (hb : Base s.plc) (hl : HasEdges s.plc l)
    (hc : Cyc s.plc r s.firstFe s.prevFe pairs) (h1 : s.prevVertex < s.plc.vertices.top)
    (h2 : v < s.plc.vertices.top)
    (hroom : s.plc.edges.top < idMax ∨ (s.plc.edgeMap (s.prevVertex, v)).isSome)
    (hroom' : s.plc.faceEdges.top < idMax) :
    ∃ s', edgeStep r s v = some s' ∧ Base s'.plc ∧
      HasEdges s'.plc (putNew l (s.prevVertex, v) s.plc.defaultEdge) ∧
      Cyc s'.plc r s'.firstFe s'.prevFe (pairs ++ [(s.prevVertex, v)]) ∧ s'.prevVertex = v ∧
      Keeps r s.plc s'.plc ∧ s'.plc.faces = s.plc.faces ∧
      layerFace s'.plc.rings s'.plc.faces = layerFace s.plc.rings s.plc.faces ∧
      s'.plc.rings.top = s.plc.rings.top ∧ s'.plc.faceEdges.top = s.plc.faceEdges.top + 1 ∧
      s'.plc.edges.top ≤ s.plc.edges.top + 1 := by
  obtain ⟨p, e, hp, hb1, hl1, oe, hem, ht1, ht2, -, hve⟩ :=
    addEdgeIfAbsent_ok s.plc.defaultEdge hb hl (vs := (s.prevVertex, v)) h1 h2 hroom
  -- the new face edge
  have hfull := hb1.fl
  have htop : p.faceEdges.top = s.plc.faceEdges.top := by rw [oe.faceEdges]
  obtain ⟨fl1, hfl1⟩ := hfull.insert (by rw [htop]; exact hroom') (FaceEdge.new e r)
  obtain ⟨-, hf1, ht1', -, hg1⟩ := hfull.insert_some hfl1
  set fe := p.faceEdges.top with hfe
  have hnew : fl1.get fe = some (FaceEdge.new e r) := by rw [hg1, if_pos rfl]
  have hold : ∀ i < fe, fl1.get i = s.plc.faceEdges.get i := by
    intro i hi
    rw [hg1, if_neg (Nat.ne_of_lt hi), oe.faceEdges]
  have hid : (fl1.get fe).isSome := by rw [hnew]; rfl
  have hfne : fe ≠ idMax := by omega
  -- the ring
  obtain ⟨x, xe, hx, hxe⟩ := fe_isSome.1 (show ((s.plc.rings.get r).bind FaceRing.fe).isSome by
    have := hc.fst
    simp only [layerRing] at this
    rw [this]; rfl)
  have hxf : xe = s.firstFe := by
    have := hc.fst
    simp only [layerRing, hx, Option.bind_some, FaceRing.fe, hxe, Option.some.injEq] at this
    exact this
  have hrl : (p.rings.get r).isSome := by rw [oe.rings, hx]; rfl
  -- linking it into the ring
  have hmid : ∃ firstFe rings fl2,
      (if s.firstFe = idMax then do
          let rings ← p.rings.upd r fun x => { x with element := .faceEdge fe }
          pure (fe, rings, fl1)
        else do
          let fl ← fl1.upd s.prevFe fun x => { x with next := fe }
          let fl ← fl.upd fe fun x => { x with prev := s.prevFe }
          pure (s.firstFe, p.rings, fl)) = some (firstFe, rings, fl2) ∧
      (∀ i, (fl2.get i).map (·.edge) = (fl1.get i).map (·.edge)) ∧
      (∀ i, (fl2.get i).map (·.ring) = (fl1.get i).map (·.ring)) ∧
      (∀ i, (fl2.get i).map (·.nextOn) = (fl1.get i).map (·.nextOn)) ∧
      (∀ i, (fl2.get i).map (·.prevOn) = (fl1.get i).map (·.prevOn)) ∧
      fl2.Full ∧ fl2.top = fl1.top ∧ rings.Full ∧ rings.top = s.plc.rings.top ∧
      (∀ i, (rings.get i).map (·.face) = (s.plc.rings.get i).map (·.face)) ∧
      (∀ i, (rings.get i).map (·.next) = (s.plc.rings.get i).map (·.next)) ∧
      (∀ i, (rings.get i).map (·.prev) = (s.plc.rings.get i).map (·.prev)) ∧
      (∀ i, i ≠ r → rings.get i = s.plc.rings.get i) ∧
      (rings.get r).bind FaceRing.fe = some firstFe ∧
      (layerRing fl2 rings).OkBut r ∧
      Open (layerRing fl2 rings).next (layerRing fl2 rings).prev firstFe (ringMem s.plc r ++ [fe]) := by
    have hmemlt : ∀ k, ∀ i ∈ (layerRing s.plc.faceEdges s.plc.rings).mem k, i < fe := by
      intro k i hi
      have : i < s.plc.faceEdges.top := Layer.lt_of_mem hi
      omega
    have hmemk : ∀ (fl : IdMap FaceEdge) (rl : IdMap FaceRing) k, k ≠ r →
        (∀ i, (fl.get i).map (·.ring) = (fl1.get i).map (·.ring)) → fl.top = fl1.top →
        (layerRing fl rl).mem k = (layerRing s.plc.faceEdges s.plc.rings).mem k := by
      intro fl rl k hk hr ht
      have := Layer.mem_succ (L := layerRing s.plc.faceEdges s.plc.rings) (L' := layerRing fl rl) (k := r)
        (by show fl.top = s.plc.faceEdges.top + 1; omega)
        (by show (fl.get s.plc.faceEdges.top).map _ = _
            rw [hr, ← htop, hnew]; rfl)
        (by intro i hi
            have hi : i < s.plc.faceEdges.top := hi
            show (fl.get i).map _ = (s.plc.faceEdges.get i).map _
            rw [hr, hold i (by omega)]) k
      rw [this, if_neg hk, List.append_nil]
    rcases hc.opn with ⟨hnil, hm⟩ | ⟨t, ht, hch⟩
    · refine ⟨fe, p.rings.modify r fun x => { x with element := .faceEdge fe }, fl1, ?_,
        fun _ => rfl, fun _ => rfl, fun _ => rfl, fun _ => rfl, hf1, rfl, hb1.fr.modify _ _,
        by rw [IdMap.top_modify, oe.rings], ?_, ?_, ?_, ?_, ?_, ?_, ?_⟩
      · rw [if_pos hm, IdMap.upd_eq _ hrl]
        rfl
      · intro i; rw [map_modify, oe.rings]; intro _; rfl
      · intro i; rw [map_modify, oe.rings]; intro _; rfl
      · intro i; rw [map_modify, oe.rings]; intro _; rfl
      · intro i hi; rw [IdMap.get_modify, if_neg hi, oe.rings]
      · rw [IdMap.get_modify, if_pos rfl, oe.rings, hx]; rfl
      · intro k o hk ho
        have ho' : (layerRing s.plc.faceEdges s.plc.rings).first k = some o := by
          simp only [layerRing] at ho ⊢
          rwa [IdMap.get_modify, if_neg hk, oe.rings] at ho
        rw [hmemk _ _ k hk (fun _ => rfl) rfl]
        refine (hc.but k o hk ho').congr ?_ ?_ <;>
        · intro i hi
          simp only [layerRing]
          rw [hold i (hmemlt k i hi)]
      · rw [hnil, List.nil_append]
        exact Open.single _ _ _
    · have hlast : ∃ q, ringMem s.plc r = q ++ [s.prevFe] := by
        have := hc.last
        rw [ht] at this ⊢
        rw [List.getLast?_cons, Option.getD_some] at this
        refine ⟨(s.firstFe :: t).dropLast, ?_⟩
        have h3 := List.dropLast_append_getLast (l := s.firstFe :: t) (by simp)
        rw [this]
        conv_lhs => rw [← h3]
        congr 2
        rw [List.getLast_eq_iff_getLast?_eq_some, List.getLast?_cons]
      obtain ⟨q, hq⟩ := hlast
      have hprev : s.prevFe ∈ ringMem s.plc r := by rw [hq]; simp
      have hprevlt : s.prevFe < fe := hmemlt r _ hprev
      have hfirst : s.firstFe ∈ ringMem s.plc r := by rw [ht]; simp
      have hne : s.firstFe ≠ idMax := by
        have := hmemlt r _ hfirst
        omega
      have hpl : (fl1.get s.prevFe).isSome := by
        rw [hold _ hprevlt]
        exact hb.fl.live _ (by omega)
      refine ⟨s.firstFe, p.rings, (fl1.modify s.prevFe fun x => { x with next := fe }).modify fe
          fun x => { x with prev := s.prevFe }, ?_, ?_, ?_, ?_, ?_, (hf1.modify _ _).modify _ _,
        by rw [IdMap.top_modify, IdMap.top_modify], hb1.fr, by rw [oe.rings], ?_, ?_, ?_, ?_, ?_, ?_, ?_⟩
      · rw [if_neg hne, IdMap.upd_eq _ hpl]
        simp only [Option.bind_eq_bind, Option.bind_some]
        rw [IdMap.upd_eq _ (by rw [IdMap.isSome_modify]; exact hid)]
        rfl
      · intro i; rw [map_modify, map_modify] <;> intro _ <;> rfl
      · intro i; rw [map_modify, map_modify] <;> intro _ <;> rfl
      · intro i; rw [map_modify, map_modify] <;> intro _ <;> rfl
      · intro i; rw [map_modify, map_modify] <;> intro _ <;> rfl
      · intro i; rw [oe.rings]
      · intro i; rw [oe.rings]
      · intro i; rw [oe.rings]
      · intro i _; rw [oe.rings]
      · rw [oe.rings]; exact hc.fst
      · intro k o hk ho
        have ho' : (layerRing s.plc.faceEdges s.plc.rings).first k = some o := by
          simp only [layerRing] at ho ⊢
          rwa [oe.rings] at ho
        rw [hmemk _ _ k hk (by intro i; rw [map_modify, map_modify] <;> intro _ <;> rfl)
          (by rw [IdMap.top_modify, IdMap.top_modify])]
        have hdis : ∀ i ∈ (layerRing s.plc.faceEdges s.plc.rings).mem k, i ≠ s.prevFe := by
          rintro i hi rfl
          have a := (Layer.mem_mem.1 hi).2
          rw [(Layer.mem_mem.1 hprev).2] at a
          exact hk (Option.some.inj a).symm
        refine (hc.but k o hk ho').congr ?_ ?_ <;>
        · intro i hi
          simp only [layerRing]
          rw [IdMap.get_modify, if_neg (Nat.ne_of_lt (hmemlt k i hi)), IdMap.get_modify,
            if_neg (hdis i hi), hold i (hmemlt k i hi)]
      · have ho1 : Open (layerRing fl1 p.rings).next (layerRing fl1 p.rings).prev s.firstFe
            (q ++ [s.prevFe]) := by
          rw [← hq]
          refine hc.opn.congr ?_ ?_ <;>
          · intro i hi
            simp only [layerRing]
            rw [hold i (hmemlt r i hi)]
        have ho2 := ho1.append (x := fe) (by rw [← hq]; exact Layer.nodup_mem _ _) (by
          rw [← hq]; intro hx; exact lt_irrefl _ (hmemlt r _ hx))
        rw [hq]
        have e1 : (layerRing ((fl1.modify s.prevFe fun x => { x with next := fe }).modify fe
            fun x => { x with prev := s.prevFe }) p.rings).next
            = Function.update (layerRing fl1 p.rings).next s.prevFe (some fe) := by
          simp only [layerRing]
          keepf; setf fe; rfl
        have e2 : (layerRing ((fl1.modify s.prevFe fun x => { x with next := fe }).modify fe
            fun x => { x with prev := s.prevFe }) p.rings).prev
            = Function.update (layerRing fl1 p.rings).prev fe (some s.prevFe) := by
          simp only [layerRing]
          setf s.prevFe; keepf; rfl
        rw [e1, e2]
        exact ho2
  obtain ⟨firstFe, rings, fl2, hm, k1, k2, k3, k4, hf2, ht2', hr2, hrt, hrf, hrn, hrp, hro, hrr, hok, hop⟩ := hmid
  -- linking it on the edge
  have heg : (p.edges.get e).map (·.vertices) = some (s.prevVertex, v) := (hb1.edgeMap _ _).1 hem
  obtain ⟨y, hy, hyv⟩ := Option.map_eq_some_iff.1 heg
  have g : (layerOn p.edges p.faceEdges).Grown (layerOn p.edges fl2) e := by
    refine ⟨?_, ?_, ?_, ?_, ?_, rfl⟩
    · show fl2.top = fe + 1
      omega
    · show (fl2.get fe).map _ = _
      rw [k1, hnew]; rfl
    · intro i hi
      show (fl2.get i).map _ = (p.faceEdges.get i).map _
      rw [k1, hold i hi, oe.faceEdges]
    · intro i hi
      show (fl2.get i).map _ = (p.faceEdges.get i).map _
      rw [k3, hold i hi, oe.faceEdges]
    · intro i hi
      show (fl2.get i).map _ = (p.faceEdges.get i).map _
      rw [k4, hold i hi, oe.faceEdges]
  have hfst : (layerOn p.edges p.faceEdges).first e = some y.faceEdge := by
    simp only [layerOn, hy, Option.map_some]
  obtain ⟨L, hL, okL, -⟩ := hb1.on.link g hfst hb1.fl.le_max
  have hlive : ∀ o q, (layerOn p.edges fl2).first e = some o →
      (layerOn p.edges fl2).prev o = some q → (fl2.get q).isSome := by
    intro o q ho hq
    have ho' : (layerOn p.edges p.faceEdges).first e = some o := ho
    by_cases hmx : o = idMax
    · subst hmx
      simp only [layerOn] at hq
      rw [hf2.get_max] at hq
      cases hq
    · have hol : o < fe := by
        rcases hb1.on _ _ ho' with ⟨_, h⟩ | ⟨t, ht, -⟩
        · exact absurd h hmx
        · exact Layer.lt_of_mem (L := layerOn p.edges p.faceEdges) (k := e) (by rw [ht]; simp)
      have hq' : (layerOn p.edges p.faceEdges).prev o = some q := (g.prev o hol).symm.trans hq
      have hlt : q < fe := layer_live hb1.on ho' hmx hq'
      exact hf2.live q (by omega)
  obtain ⟨el3, fl3, hk3, hL3, sd, sl⟩ := linkOn_ok (P := P) (V := V) hL (by
    rw [isSome_of_map (k1 _)]; exact hid) hlive
  have hedge : ∀ i, (fl3.get i).map (·.edge) = (fl1.get i).map (·.edge) := fun i => (sl.edge i).trans (k1 i)
  have hring : ∀ i, (fl3.get i).map (·.ring) = (fl1.get i).map (·.ring) := fun i => (sl.ring i).trans (k2 i)
  have hft : fl3.top = fe + 1 := by rw [sl.top]; omega
  have hrel : ∀ i x, (s.plc.rings.get i).map (·.element) = some (.vertex x) ↔
      (rings.get i).map (·.element) = some (.vertex x) := by
    intro i z
    by_cases hi : i = r
    · subst hi
      rw [hx, Option.map_some, hxe]
      have := hrr
      obtain ⟨w, we, hw, hwe⟩ := fe_isSome.1 (by rw [this]; rfl)
      rw [hw, Option.map_some, hwe]
      simp
    · rw [hro i hi]
  have hmemr : (layerRing fl3 rings).mem r = ringMem s.plc r ++ [fe] := by
    have := Layer.mem_succ (L := layerRing s.plc.faceEdges s.plc.rings) (L' := layerRing fl3 rings) (k := r)
        (by show fl3.top = s.plc.faceEdges.top + 1; omega)
        (by show (fl3.get s.plc.faceEdges.top).map _ = _
            rw [hring, ← htop, hnew]; rfl)
        (by intro i hi
            have hi : i < s.plc.faceEdges.top := hi
            show (fl3.get i).map _ = (s.plc.faceEdges.get i).map _
            rw [hring, hold i (by omega)]) r
    rw [this, if_pos rfl, htop]
    rfl
  have hmemk : ∀ k, k ≠ r → (layerRing fl3 rings).mem k = ringMem s.plc k := by
    intro k hk
    have := Layer.mem_succ (L := layerRing s.plc.faceEdges s.plc.rings) (L' := layerRing fl3 rings) (k := r)
        (by show fl3.top = s.plc.faceEdges.top + 1; omega)
        (by show (fl3.get s.plc.faceEdges.top).map _ = _
            rw [hring, ← htop, hnew]; rfl)
        (by intro i hi
            have hi : i < s.plc.faceEdges.top := hi
            show (fl3.get i).map _ = (s.plc.faceEdges.get i).map _
            rw [hring, hold i (by omega)]) k
    rw [this, if_neg hk, List.append_nil]
    rfl
  have hkeep : Keeps r s.plc { p with edges := el3, rings := rings, faceEdges := fl3 } := by
    refine ⟨oe.vertices.top, oe.vertices.position, oe.vertices.value, ?_, ?_, ?_, ?_, oe.defaultEdge⟩
    · intro i vs hi
      exact (sd.vertices i).trans (hve i vs hi)
    · intro i d hi
      obtain ⟨z, hz, -⟩ := Option.map_eq_some_iff.1 hi
      have : i < fe := by have := IdMap.lt_top hz; omega
      show (fl3.get i).map _ = _
      rw [hedge, hold i this, hi]
    · intro k hk
      exact hmemk k (Nat.ne_of_lt hk)
    · intro k hk z hz
      show (rings.get k).map _ = _
      rw [hro k (Nat.ne_of_lt hk), hz]
  refine ⟨⟨{ p with edges := el3, rings := rings, faceEdges := fl3 }, v, firstFe, fe⟩, ?_, ?_, ?_, ?_, rfl,
    hkeep, oe.faces, ?_, hrt, by show fl3.top = _; omega, by show el3.top ≤ _; rw [sd.top]; omega⟩
  · simp only [edgeStep, hp, Option.bind_eq_bind, Option.bind_some, hfl1]
    have hk3' : linkOn p.edges fl2 e fe = some (el3, fl3) := hk3
    simp only [Option.bind_eq_bind] at hm
    by_cases hif : s.firstFe = idMax
    · rw [if_pos hif] at hm ⊢
      obtain ⟨a, ha, hm⟩ := Option.bind_eq_some_iff.1 hm
      simp only [Option.pure_def, Option.some.injEq, Prod.mk.injEq] at hm
      obtain ⟨rfl, rfl, rfl⟩ := hm
      simp only [ha, Option.bind_some, Option.pure_def, hk3']
    · rw [if_neg hif] at hm ⊢
      obtain ⟨a, ha, hm⟩ := Option.bind_eq_some_iff.1 hm
      obtain ⟨b, hb', hm⟩ := Option.bind_eq_some_iff.1 hm
      simp only [Option.pure_def, Option.some.injEq, Prod.mk.injEq] at hm
      obtain ⟨rfl, rfl, rfl⟩ := hm
      simp only [ha, hb', Option.bind_some, Option.pure_def, hk3']
  · constructor
    · exact hb1.fv
    · exact sd.full hb1.fe
    · exact sl.full hf2
    · exact hr2
    · exact hb1.fs
    · show (layerOut p.vertices el3).Ok
      rw [sd.out]; exact hb1.out
    · show (layerIn p.vertices el3).Ok
      rw [sd.inn]; exact hb1.inn
    · show (layerOn el3 fl3).Ok
      rw [hL3]; exact okL
    · intro i ws hi
      exact hb1.ends i ws ((sd.vertices i).symm.trans hi)
    · intro ws i
      show p.edgeMap ws = some i ↔ (el3.get i).map (·.vertices) = some ws
      rw [sd.vertices]; exact hb1.edgeMap ws i
    · intro i d hd
      show d < el3.top
      rw [sd.top]
      have hd' : (fl3.get i).map (·.edge) = some d := hd
      rw [hedge, hg1] at hd'
      split at hd'
      · obtain rfl : e = d := Option.some.inj hd'
        exact IdMap.lt_top hy
      · exact hb1.feEdge i d hd'
    · intro i d hd
      show ((rings.get d).bind FaceRing.fe).isSome
      have hd' : (fl3.get i).map (·.ring) = some d := hd
      rw [hring, hg1] at hd'
      by_cases hdr : d = r
      · rw [hdr, hrr]; rfl
      · rw [hro d hdr]
        split at hd'
        · exact absurd (Option.some.inj hd').symm hdr
        · rw [← oe.rings]; exact hb1.feRing i d hd'
    · intro i f hf
      show f < p.faces.top
      rw [oe.faces]
      exact hb.ringFace i f ((hrf i).symm.trans hf)
    · intro i z hz
      show z < p.vertices.top
      rw [oe.vertices.top]
      exact hb.iso i z ((hrel i z).2 hz)
    · intro z w hw
      show w = (isoRings rings z).getLast?.getD idMax
      rw [isoRings_congr hrt fun i => (hrel i z).symm]
      exact hb.back z w ((oe.vertices.ring z).symm.trans hw)
  · intro i
    show (el3.get i).map _ = _
    have hv := sd.vertices i
    have hw := sd.value i
    have := hl1 i
    cases hi : p.edges.get i with
    | none =>
      rw [hi] at hv this
      simp only [Option.map_none] at hv
      rw [Option.map_eq_none_iff.1 hv, ← this]
    | some x =>
      rw [hi] at hv hw this
      rw [map_pair hv hw, ← this]
      rfl
  · refine ⟨?_, hrr, ?_, ?_, ?_⟩
    · show (layerRing fl3 rings).OkBut r
      rw [sl.layerRing]; exact hok
    · show Open (layerRing fl3 rings).next (layerRing fl3 rings).prev firstFe ((layerRing fl3 rings).mem r)
      rw [hmemr, sl.layerRing]; exact hop
    · show fe = ((layerRing fl3 rings).mem r).getLast?.getD idMax
      rw [hmemr]; simp
    · show ((layerRing fl3 rings).mem r).map _ = _
      rw [hmemr, List.map_append, List.map_append, hkeep.map_endsOf hc.pairs]
      congr 1
      simp only [List.map_cons, List.map_nil, List.cons.injEq, and_true]
      have : (fl3.get fe).map (·.edge) = some e := by rw [hedge, hnew]; rfl
      obtain ⟨z, hz, hze⟩ := Option.map_eq_some_iff.1 this
      show (fl3.get fe).bind _ = _
      rw [hz, Option.bind_some, hze]
      exact (sd.vertices e).trans heg
  · show layerFace rings p.faces = _
    rw [oe.faces]
    simp only [layerFace, hrt]
    congr 1
    · exact funext hrf
    · exact funext hrn
    · exact funext hrp

end Tet.Plc
