import Verif.Proofs.PlcRing

/-!
# Adding a face to a `Plc`
-/

namespace Tet.Plc
open Linked PlcSpec
variable {P Q V E F : Type}

theorem edgeStep_some {s s' : EdgeLoop P Q V E F} {r v : Nat} (hb : Base s.plc)
    (h : edgeStep r s v = some s') :
    s.prevVertex < s.plc.vertices.top ∧ v < s.plc.vertices.top ∧
    (s.plc.edges.top < idMax ∨ (s.plc.edgeMap (s.prevVertex, v)).isSome) ∧
    s.plc.faceEdges.top < idMax := by
  unfold edgeStep at h
  simp only [Option.bind_eq_bind] at h
  obtain ⟨⟨p, e⟩, hp, h⟩ := Option.bind_eq_some_iff.1 h
  obtain ⟨⟨fl, fe⟩, hfl, h⟩ := Option.bind_eq_some_iff.1 h
  obtain ⟨h1, h2, h3⟩ := addEdgeIfAbsent_some hb hp
  obtain ⟨l, hl⟩ : ∃ l, HasEdges s.plc l := by
    refine ⟨(List.range s.plc.edges.top).filterMap fun i =>
      (s.plc.edges.get i).map fun x => (x.vertices, x.value), ?_⟩
    intro i
    have : ∀ n ≤ s.plc.edges.top, ((List.range n).filterMap fun i =>
        (s.plc.edges.get i).map fun x => (x.vertices, x.value)) =
        (List.range n).filterMap (fun i => (s.plc.edges.get i).map fun x => (x.vertices, x.value)) ∧
        ((List.range n).filterMap fun i =>
          (s.plc.edges.get i).map fun x => (x.vertices, x.value)).length = n ∧
        ∀ i < n, ((List.range n).filterMap fun i =>
          (s.plc.edges.get i).map fun x => (x.vertices, x.value))[i]? =
          (s.plc.edges.get i).map fun x => (x.vertices, x.value) := by
      intro n
      induction n with
      | zero => simp
      | succ n ih =>
        intro hn
        obtain ⟨-, ih1, ih2⟩ := ih (by omega)
        obtain ⟨x, hx⟩ := hb.fe.exists (i := n) (by omega)
        refine ⟨rfl, ?_, ?_⟩
        · rw [List.range_succ, List.filterMap_append, List.length_append, ih1]
          simp [hx]
        · intro i hi
          rw [List.range_succ, List.filterMap_append]
          by_cases hin : i < n
          · rw [List.getElem?_append_left (by omega), ih2 i hin]
          · obtain rfl : i = n := by omega
            rw [List.getElem?_append_right (by omega), ih1]
            simp [hx]
    obtain ⟨-, h1, h2⟩ := this _ (le_refl _)
    by_cases hi : i < s.plc.edges.top
    · rw [h2 i hi]
    · rw [List.getElem?_eq_none (by omega)]
      cases hx : s.plc.edges.get i with
      | none => rfl
      | some x => exact absurd (IdMap.lt_top hx) hi
  obtain ⟨p', e', hp', hb', -, oe, -⟩ := addEdgeIfAbsent_ok s.plc.defaultEdge hb hl h1 h2 h3
  rw [hp'] at hp
  obtain ⟨rfl, rfl⟩ : p' = p ∧ e' = e := by simpa using hp
  refine ⟨h1, h2, h3, ?_⟩
  have := (hb'.fl.insert_some hfl).2.2.2.1
  rwa [oe.faceEdges] at this

/-- The steps of a path. -/
def path : Nat → List Nat → List (Nat × Nat)
  | _, [] => []
  | a, b :: l => (a, b) :: path b l

theorem cyc_eq_path (a b : Nat) (l : List Nat) : cyc (a :: b :: l) = path a (b :: l ++ [a]) := by
  have : ∀ (c d : Nat) (l : List Nat), (c :: l).zip (l ++ [d]) = path c (l ++ [d]) := by
    intro c d l
    induction l generalizing c with
    | nil => rfl
    | cons e l ih => simp only [List.cons_append, List.zip_cons_cons, path, ih]
  exact this a a (b :: l)

theorem path_fst (a : Nat) (l : List Nat) : (path a l).map Prod.fst = (a :: l).dropLast := by
  induction l generalizing a with
  | nil => rfl
  | cons b l ih => simp [path, ih]

theorem cyc_fst {l : List Nat} (h : 2 ≤ l.length) : (cyc l).map Prod.fst = l := by
  match l, h with
  | a :: b :: l, _ =>
    rw [cyc_eq_path, path_fst]
    simp only [← List.cons_append, List.dropLast_concat]

/-- What the loop over the vertices of a ring has done. -/
structure EdgesDone (r : Nat) (s s' : EdgeLoop P Q V E F) (l : List ((Nat × Nat) × E))
    (pairs new : List (Nat × Nat)) (k : Nat) : Prop where
  base : Base s'.plc
  edges : HasEdges s'.plc (new.foldl (fun l vs => putNew l vs s.plc.defaultEdge) l)
  cyc : Cyc s'.plc r s'.firstFe s'.prevFe (pairs ++ new)
  keeps : Keeps r s.plc s'.plc
  faces : s'.plc.faces = s.plc.faces
  layerFace : layerFace s'.plc.rings s'.plc.faces = Plc.layerFace s.plc.rings s.plc.faces
  rings : s'.plc.rings.top = s.plc.rings.top
  fetop : s'.plc.faceEdges.top = s.plc.faceEdges.top + k
  etop : s'.plc.edges.top ≤ s.plc.edges.top + k

theorem edges_done {r : Nat} : ∀ {vs : List Nat} {s s' : EdgeLoop P Q V E F} {l : List ((Nat × Nat) × E)}
    {pairs : List (Nat × Nat)}, Base s.plc → HasEdges s.plc l →
    Cyc s.plc r s.firstFe s.prevFe pairs → vs.foldlM (edgeStep r) s = some s' →
    EdgesDone r s s' l pairs (path s.prevVertex vs) vs.length ∧ ∀ v ∈ vs, v < s.plc.vertices.top := by
  intro vs
  induction vs with
  | nil =>
    intro s s' l pairs hb hl hc h
    simp only [List.foldlM_nil, Option.pure_def, Option.some.injEq] at h
    subst h
    refine ⟨⟨hb, hl, by simpa [path] using hc, Keeps.rfl, rfl, rfl, rfl, rfl, by simp⟩, by simp⟩
  | cons v vs ih =>
    intro s s' l pairs hb hl hc h
    rw [List.foldlM_cons, Option.bind_eq_bind] at h
    obtain ⟨s1, h1, h⟩ := Option.bind_eq_some_iff.1 h
    obtain ⟨c1, c2, c3, c4⟩ := edgeStep_some hb h1
    obtain ⟨s2, h2, hb2, hl2, hc2, hv2, k2, f2, lf2, r2, t2, e2⟩ := edgeStep_ok hb hl hc c1 c2 c3 c4
    obtain rfl : s2 = s1 := by rw [h2] at h1; exact Option.some.inj h1
    obtain ⟨hd, hvs⟩ := ih hb2 hl2 hc2 h
    rw [hv2] at hd
    refine ⟨⟨hd.base, ?_, ?_, k2.trans hd.keeps, hd.faces.trans f2, hd.layerFace.trans lf2,
      hd.rings.trans r2, ?_, ?_⟩, ?_⟩
    · have := hd.edges
      rw [k2.default] at this
      exact this
    · have := hd.cyc
      rw [List.append_assoc] at this
      exact this
    · rw [hd.fetop, t2, List.length_cons]; omega
    · have := hd.etop
      rw [List.length_cons]; omega
    · intro w hw
      rcases List.mem_cons.1 hw with rfl | hw
      · exact c2
      · have := hvs w hw
        rwa [k2.vtop] at this

theorem edges_run {r : Nat} : ∀ {vs : List Nat} {s : EdgeLoop P Q V E F} {l : List ((Nat × Nat) × E)}
    {pairs : List (Nat × Nat)}, Base s.plc → HasEdges s.plc l →
    Cyc s.plc r s.firstFe s.prevFe pairs → s.prevVertex < s.plc.vertices.top →
    (∀ v ∈ vs, v < s.plc.vertices.top) → s.plc.edges.top + vs.length ≤ idMax →
    s.plc.faceEdges.top + vs.length ≤ idMax → ∃ s', vs.foldlM (edgeStep r) s = some s' := by
  intro vs
  induction vs with
  | nil => intro s l pairs _ _ _ _ _ _ _; exact ⟨s, rfl⟩
  | cons v vs ih =>
    intro s l pairs hb hl hc h1 h2 h3 h4
    rw [List.length_cons] at h3 h4
    obtain ⟨s2, h2', hb2, hl2, hc2, hv2, k2, f2, lf2, r2, t2, e2⟩ :=
      edgeStep_ok hb hl hc h1 (h2 v (by simp)) (.inl (by omega)) (by omega)
    obtain ⟨s', hs'⟩ := ih hb2 hl2 hc2 (by rw [hv2, k2.vtop]; exact h2 v (by simp))
      (fun w hw => by rw [k2.vtop]; exact h2 w (by simp [hw])) (by omega) (by omega)
    exact ⟨s', by rw [List.foldlM_cons, Option.bind_eq_bind, h2', Option.bind_some, hs']⟩

/-- The ring `r` consists of the vertices `vs`. -/
def RingHas (p : Plc P Q V E F) (r : Nat) (vs : List Nat) : Prop :=
  (∃ v, vs = [v] ∧ (p.rings.get r).map (·.element) = some (.vertex v)) ∨
  (2 ≤ vs.length ∧ ((p.rings.get r).bind FaceRing.fe).isSome ∧
    (ringMem p r).map (endsOf p) = (cyc vs).map some)

theorem RingHas.keeps {nr : Nat} {p p' : Plc P Q V E F} {r : Nat} {vs : List Nat} (h : RingHas p r vs)
    (hk : Keeps nr p p') (hr : r < nr) : RingHas p' r vs := by
  rcases h with ⟨v, hv, he⟩ | ⟨h2, h3, h4⟩
  · exact .inl ⟨v, hv, hk.element r hr _ he⟩
  · refine .inr ⟨h2, ?_, ?_⟩
    · obtain ⟨x, fe, hx, hxe⟩ := fe_isSome.1 h3
      have := hk.element r hr (.faceEdge fe) (by rw [hx]; simp [hxe])
      obtain ⟨y, hy, hye⟩ := Option.map_eq_some_iff.1 this
      exact fe_isSome.2 ⟨y, fe, hy, hye⟩
    · rw [hk.mem r hr]
      exact hk.map_endsOf h4

/-- What adding the ring `r`, already inserted, has done. -/
structure RingDone (r : Nat) (p p' : Plc P Q V E F) (l : List ((Nat × Nat) × E)) (vs : List Nat) : Prop where
  base : Base p'
  edges : HasEdges p' ((cyc vs).foldl (fun l vs => putNew l vs p.defaultEdge) l)
  ok : (layerRing p'.faceEdges p'.rings).Ok
  has : RingHas p' r vs
  keeps : Keeps r p p'
  faces : p'.faces = p.faces
  layerFace : layerFace p'.rings p'.faces = Plc.layerFace p.rings p.faces
  rings : p'.rings.top = p.rings.top
  fetop : p'.faceEdges.top ≤ p.faceEdges.top + vs.length
  etop : p'.edges.top ≤ p.edges.top + vs.length

/-- The invariant when a ring was just inserted: nothing is in it. -/
theorem start_cyc {p : Plc P Q V E F} {r : Nat} (hok : (layerRing p.faceEdges p.rings).OkBut r)
    (hr : (p.rings.get r).map (·.element) = some (.faceEdge idMax)) (hnil : ringMem p r = []) :
    Cyc p r idMax idMax [] := by
  obtain ⟨x, hx, hxe⟩ := Option.map_eq_some_iff.1 hr
  refine ⟨hok, ?_, .inl ⟨hnil, rfl⟩, by rw [hnil]; rfl, by rw [hnil]; rfl⟩
  simp [layerRing, hx, FaceRing.fe, hxe]

theorem addCycle_done {p p' : Plc P Q V E F} {r a b : Nat} {rest : List Nat} {l : List ((Nat × Nat) × E)}
    (hb : Base p) (hl : HasEdges p l) (hok : (layerRing p.faceEdges p.rings).OkBut r)
    (hr : (p.rings.get r).map (·.element) = some (.faceEdge idMax)) (hnil : ringMem p r = [])
    (h : p.addCycle r a b rest = some p') :
    RingDone r p p' l (a :: b :: rest) ∧ ∀ v ∈ a :: b :: rest, v < p.vertices.top := by
  unfold addCycle at h
  simp only [Option.bind_eq_bind] at h
  obtain ⟨s, hs, h⟩ := Option.bind_eq_some_iff.1 h
  obtain ⟨fl1, hf1, h⟩ := Option.bind_eq_some_iff.1 h
  obtain ⟨fl2, hf2, h⟩ := Option.bind_eq_some_iff.1 h
  simp only [Option.pure_def, Option.some.injEq] at h
  subst h
  obtain ⟨hd, hv⟩ := edges_done (s := ⟨p, a, idMax, idMax⟩) (pairs := []) hb hl
    (start_cyc hok hr hnil) hs
  obtain ⟨hl1, rfl⟩ := IdMap.upd_some hf1
  obtain ⟨hl2, rfl⟩ := IdMap.upd_some hf2
  have hpath : path a (b :: rest ++ [a]) = cyc (a :: b :: rest) := (cyc_eq_path a b rest).symm
  have hc := hd.cyc
  simp only [List.nil_append, hpath] at hc
  -- the list is not empty
  have hne : ringMem s.plc r ≠ [] := by
    intro h0
    have := hc.pairs
    rw [h0, cyc] at this
    simp at this
  obtain ⟨q, hq⟩ : ∃ q, ringMem s.plc r = q ++ [s.prevFe] := by
    have := hc.last
    obtain ⟨z, hz⟩ : ∃ z, (ringMem s.plc r).getLast? = some z := by
      cases h0 : (ringMem s.plc r).getLast? with
      | none => exact absurd (List.getLast?_eq_none_iff.1 h0) hne
      | some z => exact ⟨z, rfl⟩
    rw [hz, Option.getD_some] at this
    rw [this]
    obtain ⟨q, hq⟩ := List.getLast?_eq_some_iff.1 hz
    exact ⟨q, hq⟩
  have hnd : (q ++ [s.prevFe]).Nodup := by rw [← hq]; exact Layer.nodup_mem _ _
  have hcl := (show Open _ _ s.firstFe (q ++ [s.prevFe]) from by rw [← hq]; exact hc.opn).close hnd
  -- the fields
  set fl := (s.plc.faceEdges.modify s.prevFe fun x => { x with next := s.firstFe }).modify s.firstFe
    fun x => { x with prev := s.prevFe } with hfl
  have hl2' : (s.plc.faceEdges.get s.firstFe).isSome := by rwa [IdMap.isSome_modify] at hl2
  have k1 : ∀ i, (fl.get i).map (·.edge) = (s.plc.faceEdges.get i).map (·.edge) := by
    intro i; rw [hfl, map_modify, map_modify] <;> intro _ <;> rfl
  have k2 : ∀ i, (fl.get i).map (·.ring) = (s.plc.faceEdges.get i).map (·.ring) := by
    intro i; rw [hfl, map_modify, map_modify] <;> intro _ <;> rfl
  have k3 : ∀ i, (fl.get i).map (·.nextOn) = (s.plc.faceEdges.get i).map (·.nextOn) := by
    intro i; rw [hfl, map_modify, map_modify] <;> intro _ <;> rfl
  have k4 : ∀ i, (fl.get i).map (·.prevOn) = (s.plc.faceEdges.get i).map (·.prevOn) := by
    intro i; rw [hfl, map_modify, map_modify] <;> intro _ <;> rfl
  have kt : fl.top = s.plc.faceEdges.top := by rw [hfl, IdMap.top_modify, IdMap.top_modify]
  have kf : fl.Full := (hd.base.fl.modify _ _).modify _ _
  have kn : (layerRing fl s.plc.rings).next =
      Function.update (layerRing s.plc.faceEdges s.plc.rings).next s.prevFe (some s.firstFe) := by
    simp only [layerRing, hfl]
    keepf; setf s.firstFe; rfl
  have kp : (layerRing fl s.plc.rings).prev =
      Function.update (layerRing s.plc.faceEdges s.plc.rings).prev s.firstFe (some s.prevFe) := by
    simp only [layerRing, hfl]
    setf s.prevFe; keepf; rfl
  have kmem : ∀ k, (layerRing fl s.plc.rings).mem k = ringMem s.plc k := by
    intro k
    refine Layer.mem_congr (L := layerRing s.plc.faceEdges s.plc.rings) kt ?_
    intro i _
    show (fl.get i).map _ = _ ↔ (s.plc.faceEdges.get i).map _ = _
    rw [k2]
  have hkeep : Keeps r s.plc { s.plc with faceEdges := fl } :=
    ⟨rfl, fun _ => rfl, fun _ => rfl, fun _ _ h => h, fun i e h => (k1 i).trans h,
      fun k _ => kmem k, fun _ _ _ h => h, rfl⟩
  have hends : ∀ i, endsOf { s.plc with faceEdges := fl } i = endsOf s.plc i := by
    intro i
    have := k1 i
    unfold endsOf
    show (fl.get i).bind _ = _
    cases hi : s.plc.faceEdges.get i with
    | none =>
      rw [hi] at this
      rw [Option.map_eq_none_iff.1 this]
    | some x =>
      rw [hi] at this
      obtain ⟨y, hy, hye⟩ := Option.map_eq_some_iff.1 this
      rw [hy]
      simp only [Option.bind_some, hye]
  have hon : layerOn s.plc.edges fl = layerOn s.plc.edges s.plc.faceEdges := by
    simp only [layerOn, kt]
    congr 1
    · exact funext k1
    · exact funext k3
    · exact funext k4
  refine ⟨⟨?_, ?_, ?_, ?_, hd.keeps.trans hkeep, hd.faces, hd.layerFace, hd.rings, ?_, ?_⟩, ?_⟩
  · have b := hd.base
    exact ⟨b.fv, b.fe, kf, b.fr, b.fs, b.out, b.inn, by rw [hon]; exact b.on, b.ends, b.edgeMap,
      fun i e h => b.feEdge i e ((k1 i).symm.trans h), fun i e h => b.feRing i e ((k2 i).symm.trans h),
      b.ringFace, b.iso, b.back⟩
  · have := hd.edges
    simp only [hpath] at this
    exact this
  · intro k o ho
    show Cyclic _ _ _ ((layerRing fl s.plc.rings).mem k)
    have ho' : (layerRing s.plc.faceEdges s.plc.rings).first k = some o := ho
    rw [kmem]
    show Cyclic (layerRing fl s.plc.rings).next (layerRing fl s.plc.rings).prev o _
    rw [kn, kp]
    by_cases hk : k = r
    · subst hk
      obtain rfl : s.firstFe = o := by rw [hc.fst] at ho'; exact Option.some.inj ho'
      rw [hq]
      exact hcl
    · have hfirst : s.firstFe ∈ ringMem s.plc r := by
        rw [hq]
        exact Open.first (by rw [← hq]; exact hc.opn)
      have hdis : ∀ j ∈ ringMem s.plc r, j ∉ ringMem s.plc k := by
        intro j hj hj'
        have a := (Layer.mem_mem.1 hj).2
        rw [(Layer.mem_mem.1 hj').2] at a
        exact hk (Option.some.inj a)
      refine (hc.but k o hk ho').congr ?_ ?_
      · intro i hi
        rw [Function.update_of_ne]
        rintro rfl
        exact hdis _ (by rw [hq]; simp) hi
      · intro i hi
        rw [Function.update_of_ne]
        rintro rfl
        exact hdis _ hfirst hi
  · refine .inr ⟨by simp, ?_, ?_⟩
    · show ((s.plc.rings.get r).bind FaceRing.fe).isSome
      have := hc.fst
      simp only [layerRing] at this
      rw [this]; rfl
    · show ((layerRing fl s.plc.rings).mem r).map _ = _
      rw [kmem, ← hc.pairs]
      exact List.map_congr_left fun i _ => hends i
  · show fl.top ≤ _
    rw [kt, hd.fetop]
    simp
  · show s.plc.edges.top ≤ _
    have := hd.etop
    simpa using this
  · intro v hv'
    have ha : a < p.vertices.top := hv a (by simp)
    rcases List.mem_cons.1 hv' with rfl | hv'
    · exact ha
    · exact hv v (by rw [List.mem_append]; exact .inl hv')

theorem addCycle_run {p : Plc P Q V E F} {r a b : Nat} {rest : List Nat} {l : List ((Nat × Nat) × E)}
    (hb : Base p) (hl : HasEdges p l) (hok : (layerRing p.faceEdges p.rings).OkBut r)
    (hr : (p.rings.get r).map (·.element) = some (.faceEdge idMax)) (hnil : ringMem p r = [])
    (hv : ∀ v ∈ a :: b :: rest, v < p.vertices.top)
    (he : p.edges.top + (a :: b :: rest).length ≤ idMax)
    (hf : p.faceEdges.top + (a :: b :: rest).length ≤ idMax) :
    ∃ p', p.addCycle r a b rest = some p' := by
  obtain ⟨s, hs⟩ := edges_run (s := ⟨p, a, idMax, idMax⟩) (pairs := []) (r := r)
    (vs := b :: rest ++ [a]) hb hl
    (start_cyc hok hr hnil) (hv a (by simp)) (by
      intro v hv'
      have hv' : v ∈ b :: rest ++ [a] := hv'
      apply hv
      simp only [List.cons_append, List.mem_cons, List.mem_append, List.not_mem_nil, or_false] at hv' ⊢
      tauto) (by simpa using he) (by simpa using hf)
  obtain ⟨hd, -⟩ := edges_done (s := ⟨p, a, idMax, idMax⟩) (pairs := []) hb hl
    (start_cyc hok hr hnil) hs
  have hc := hd.cyc
  have hpath : path a (b :: rest ++ [a]) = cyc (a :: b :: rest) := (cyc_eq_path a b rest).symm
  simp only [List.nil_append, hpath] at hc
  have hne : ringMem s.plc r ≠ [] := by
    intro h0
    have := hc.pairs
    rw [h0, cyc] at this
    simp at this
  have hlt : ∀ i ∈ ringMem s.plc r, (s.plc.faceEdges.get i).isSome := fun i hi =>
    hd.base.fl.live i (Layer.lt_of_mem hi)
  have h1 : (s.plc.faceEdges.get s.prevFe).isSome := by
    apply hlt
    obtain ⟨z, hz⟩ : ∃ z, (ringMem s.plc r).getLast? = some z := by
      cases h0 : (ringMem s.plc r).getLast? with
      | none => exact absurd (List.getLast?_eq_none_iff.1 h0) hne
      | some z => exact ⟨z, rfl⟩
    have := hc.last
    rw [hz, Option.getD_some] at this
    rw [this]
    exact List.mem_of_getLast? hz
  have h2 : (s.plc.faceEdges.get s.firstFe).isSome := by
    apply hlt
    rcases hc.opn with ⟨h0, -⟩ | ⟨t, ht, -⟩
    · exact absurd h0 hne
    · rw [ht]; simp
  rw [← Option.isSome_iff_exists]
  simp only [addCycle, Option.bind_eq_bind, hs, Option.bind_some]
  rw [IdMap.upd_eq _ h1, Option.bind_some, IdMap.upd_eq _ (by rw [IdMap.isSome_modify]; exact h2)]
  rfl

theorem addIsolated_done {p p' : Plc P Q V E F} {r v : Nat} {l : List ((Nat × Nat) × E)}
    (hb : Base p) (hl : HasEdges p l) (hok : (layerRing p.faceEdges p.rings).OkBut r)
    (hr : (p.rings.get r).map (·.element) = some (.faceEdge idMax)) (hnil : ringMem p r = [])
    (htop : p.rings.top = r + 1) (h : p.addIsolated r v = some p') :
    RingDone r p p' l [v] ∧ v < p.vertices.top := by
  unfold addIsolated at h
  simp only [Option.bind_eq_bind] at h
  obtain ⟨rl, h1, h⟩ := Option.bind_eq_some_iff.1 h
  obtain ⟨vl, h2, h⟩ := Option.bind_eq_some_iff.1 h
  simp only [Option.pure_def, Option.some.injEq] at h
  subst h
  obtain ⟨hl1, rfl⟩ := IdMap.upd_some h1
  obtain ⟨hl2, rfl⟩ := IdMap.upd_some h2
  set rl := p.rings.modify r fun x => { x with element := .vertex v } with hrl
  set vl := p.vertices.modify v fun x => { x with ring := r } with hvl
  have k1 : ∀ i, (rl.get i).map (·.face) = (p.rings.get i).map (·.face) := by
    intro i; rw [hrl, map_modify]; intro _; rfl
  have k2 : ∀ i, (rl.get i).map (·.next) = (p.rings.get i).map (·.next) := by
    intro i; rw [hrl, map_modify]; intro _; rfl
  have k3 : ∀ i, (rl.get i).map (·.prev) = (p.rings.get i).map (·.prev) := by
    intro i; rw [hrl, map_modify]; intro _; rfl
  have k4 : ∀ i, i ≠ r → rl.get i = p.rings.get i := by
    intro i hi; rw [hrl, IdMap.get_modify, if_neg hi]
  have k5 : (rl.get r).map (·.element) = some (.vertex v) := by
    obtain ⟨x, hx⟩ := Option.isSome_iff_exists.1 hl1
    rw [hrl, IdMap.get_modify, if_pos rfl, hx]; rfl
  have kt : rl.top = p.rings.top := IdMap.top_modify _ _ _
  have ko : layerOut vl p.edges = layerOut p.vertices p.edges := by
    simp only [layerOut, hvl]
    congr 1
    keepf; rfl
  have ki : layerIn vl p.edges = layerIn p.vertices p.edges := by
    simp only [layerIn, hvl]
    congr 1
    keepf; rfl
  have hiso : ∀ w, isoRings rl w = if w = v then isoRings p.rings v ++ [r] else isoRings p.rings w := by
    intro w
    have hlast : ∀ rl' : IdMap FaceRing, rl'.top = r + 1 → isoRings rl' w =
        ((List.range r).filter fun i => (rl'.get i).map (·.element) = some (.vertex w)) ++
          if (rl'.get r).map (·.element) = some (.vertex w) then [r] else [] := by
      intro rl' h
      rw [isoRings, h, List.range_succ, List.filter_append]
      congr 1
      by_cases h : (rl'.get r).map (·.element) = some (.vertex w)
      · rw [if_pos h, List.filter_cons_of_pos (by simpa only [decide_eq_true_eq] using h)]; rfl
      · rw [if_neg h, List.filter_cons_of_neg (by simpa only [decide_eq_true_eq] using h)]; rfl
    have hfil : ((List.range r).filter fun i => (rl.get i).map (·.element) = some (.vertex w)) =
        (List.range r).filter fun i => (p.rings.get i).map (·.element) = some (.vertex w) :=
      List.filter_congr fun i hi => by rw [k4 i (Nat.ne_of_lt (List.mem_range.1 hi))]
    have hp := hlast p.rings htop
    rw [hr, if_neg (by simp), List.append_nil] at hp
    rw [hlast rl (by rw [kt, htop]), hfil, ← hp, k5]
    by_cases hw : w = v
    · subst hw; simp
    · rw [if_neg hw, if_neg (by simpa using Ne.symm hw), List.append_nil]
  have hvt : v < p.vertices.top := IdMap.lt_top_of_isSome hl2
  have hkeep : Keeps r p { p with rings := rl, vertices := vl } := by
    refine ⟨IdMap.top_modify _ _ _, ?_, ?_, fun _ _ h => h, fun _ _ h => h, ?_, ?_, rfl⟩
    · intro i
      show (vl.get i).map _ = _
      rw [hvl, map_modify]; intro _; rfl
    · intro i
      show (vl.get i).map _ = _
      rw [hvl, map_modify]; intro _; rfl
    · intro k _; rfl
    · intro k hk x hx
      show (rl.get k).map _ = _
      rw [k4 k (Nat.ne_of_lt hk), hx]
  refine ⟨⟨?_, hl, ?_, .inl ⟨v, rfl, k5⟩, hkeep, rfl, ?_, kt, by show p.faceEdges.top ≤ _; omega,
    by show p.edges.top ≤ _; omega⟩, hvt⟩
  · refine ⟨hb.fv.modify _ _, hb.fe, hb.fl, hb.fr.modify _ _, hb.fs, ?_, ?_, hb.on, ?_, hb.edgeMap, hb.feEdge, ?_, ?_, ?_, ?_⟩
    · show (layerOut vl p.edges).Ok
      rw [ko]; exact hb.out
    · show (layerIn vl p.edges).Ok
      rw [ki]; exact hb.inn
    · intro e vs he
      show vs.1 < vl.top ∧ vs.2 < vl.top
      rw [hvl, IdMap.top_modify]
      exact hb.ends e vs he
    · intro i d hd
      show ((rl.get d).bind FaceRing.fe).isSome
      have hdr : d ≠ r := by
        rintro rfl
        obtain ⟨x, hx, -⟩ := Option.map_eq_some_iff.1 hd
        have : i ∈ ringMem p d := Layer.mem_mem.2 ⟨IdMap.lt_top hx, hd⟩
        rw [hnil] at this
        cases this
      rw [k4 d hdr]
      exact hb.feRing i d hd
    · intro i f hf
      exact hb.ringFace i f ((k1 i).symm.trans hf)
    · intro i w hw
      show w < vl.top
      rw [hvl, IdMap.top_modify]
      by_cases hi : i = r
      · subst hi
        have := k5.symm.trans hw
        obtain rfl : v = w := by simpa using this
        exact hvt
      · have hw' : (rl.get i).map (·.element) = some (.vertex w) := hw
        rw [k4 i hi] at hw'
        exact hb.iso i w hw'
    · intro w x hx
      show x = (isoRings rl w).getLast?.getD idMax
      rw [hiso]
      have hx' : (vl.get w).map (·.ring) = some x := hx
      rw [hvl, IdMap.get_modify] at hx'
      by_cases hw : w = v
      · rw [if_pos hw] at hx' ⊢
        rw [Option.map_map] at hx'
        obtain ⟨y, -, hy⟩ := Option.map_eq_some_iff.1 hx'
        simp only [Function.comp] at hy
        simp [← hy]
      · rw [if_neg hw] at hx' ⊢
        exact hb.back w x hx'
  · intro k o ho
    have ho' : (rl.get k).bind FaceRing.fe = some o := ho
    have hk : k ≠ r := by
      rintro rfl
      obtain ⟨y, hy, hye⟩ := Option.map_eq_some_iff.1 k5
      rw [hy] at ho'
      simp [FaceRing.fe, hye] at ho'
    rw [k4 k hk] at ho'
    exact hok k o hk ho'
  · show layerFace rl p.faces = _
    simp only [layerFace, kt]
    congr 1
    · exact funext k1
    · exact funext k2
    · exact funext k3

theorem addIsolated_run {p : Plc P Q V E F} {r v : Nat} (hr : (p.rings.get r).isSome)
    (hv : (p.vertices.get v).isSome) : ∃ p', p.addIsolated r v = some p' := by
  rw [← Option.isSome_iff_exists]
  simp only [addIsolated, Option.bind_eq_bind]
  rw [IdMap.upd_eq _ hr, Option.bind_some, IdMap.upd_eq _ hv]
  rfl

/-- The part of a step of the loop over the rings that depends on the vertices. -/
def addVertices (p : Plc P Q V E F) (r : Nat) : List Nat → Option (Plc P Q V E F)
  | [] => none
  | [v] => p.addIsolated r v
  | first :: second :: rest => p.addCycle r first second rest

theorem addVertices_done {p p' : Plc P Q V E F} {r : Nat} {vs : List Nat} {l : List ((Nat × Nat) × E)}
    (hb : Base p) (hl : HasEdges p l) (hok : (layerRing p.faceEdges p.rings).OkBut r)
    (hr : (p.rings.get r).map (·.element) = some (.faceEdge idMax)) (hnil : ringMem p r = [])
    (htop : p.rings.top = r + 1) (h : p.addVertices r vs = some p') :
    RingDone r p p' l vs ∧ vs ≠ [] ∧ ∀ v ∈ vs, v < p.vertices.top := by
  match vs, h with
  | [v], h =>
    obtain ⟨h1, h2⟩ := addIsolated_done hb hl hok hr hnil htop h
    exact ⟨h1, by simp, by simpa using h2⟩
  | a :: b :: rest, h =>
    obtain ⟨h1, h2⟩ := addCycle_done hb hl hok hr hnil h
    exact ⟨h1, by simp, h2⟩

theorem addVertices_run {p : Plc P Q V E F} {r : Nat} {vs : List Nat} {l : List ((Nat × Nat) × E)}
    (hb : Base p) (hl : HasEdges p l) (hok : (layerRing p.faceEdges p.rings).OkBut r)
    (hr : (p.rings.get r).map (·.element) = some (.faceEdge idMax)) (hnil : ringMem p r = [])
    (hvs : vs ≠ []) (hv : ∀ v ∈ vs, v < p.vertices.top)
    (he : p.edges.top + vs.length ≤ idMax) (hf : p.faceEdges.top + vs.length ≤ idMax) :
    ∃ p', p.addVertices r vs = some p' := by
  match vs, hvs with
  | [v], _ =>
    refine addIsolated_run ?_ (hb.fv.live v (hv v (by simp)))
    obtain ⟨x, hx, -⟩ := Option.map_eq_some_iff.1 hr
    rw [hx]; rfl
  | a :: b :: rest, _ => exact addCycle_run hb hl hok hr hnil hv he hf

end Tet.Plc
