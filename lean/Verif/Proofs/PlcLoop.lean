import Verif.Proofs.PlcFace

/-!
# The loop over the rings of a face
-/

namespace Tet.Plc
open Linked PlcSpec
variable {P Q V E F : Type}

theorem ringStep_eq (face : Nat) (s : RingLoop P Q V E F) (vs : List Nat) :
    ringStep face s vs = (do
      let (rings, ring) ← s.plc.rings.insert (FaceRing.new face)
      let p := { s.plc with rings }
      let (p, firstRing) ←
        if s.firstRing = idMax then do
          let faces ← p.faces.upd face fun x => { x with ring }
          pure ({ p with faces }, ring)
        else do
          let rings ← p.rings.upd s.prevRing fun x => { x with next := ring }
          let rings ← rings.upd ring fun x => { x with prev := s.prevRing }
          pure ({ p with rings }, s.firstRing)
      let p ← p.addVertices ring vs
      return ⟨p, firstRing, ring⟩) := by
  match vs with
  | [] => rfl
  | [_] => rfl
  | _ :: _ :: _ => rfl

/-- The invariant does not depend on the links between rings. -/
theorem Base.of_rings {p : Plc P Q V E F} (hb : Base p) {rl : IdMap FaceRing} {fs : IdMap (Face Q F)}
    (hr : rl.Full) (hf : fs.Full) (ht : rl.top = p.rings.top) (hft : p.faces.top ≤ fs.top)
    (hel : ∀ i, (rl.get i).map (·.element) = (p.rings.get i).map (·.element))
    (hfa : ∀ i, (rl.get i).map (·.face) = (p.rings.get i).map (·.face)) :
    Base { p with rings := rl, faces := fs } := by
  refine ⟨hb.fv, hb.fe, hb.fl, hr, hf, hb.out, hb.inn, hb.on, hb.ends, hb.edgeMap, hb.feEdge, ?_, ?_, ?_, ?_⟩
  · intro i d hd
    obtain ⟨x, fe, hx, hxe⟩ := fe_isSome.1 (hb.feRing i d hd)
    have := hel d
    rw [hx, Option.map_some, hxe] at this
    obtain ⟨y, hy, hye⟩ := Option.map_eq_some_iff.1 this
    exact fe_isSome.2 ⟨y, fe, hy, hye⟩
  · intro i f h
    have := hb.ringFace i f ((hfa i).symm.trans h)
    show f < fs.top
    omega
  · intro i v h
    exact hb.iso i v ((hel i).symm.trans h)
  · intro v x hx
    show x = (isoRings rl v).getLast?.getD idMax
    rw [isoRings_congr ht fun i => by rw [hel i]]
    exact hb.back v x hx

theorem layerRing_congr {fl : IdMap FaceEdge} {rl rl' : IdMap FaceRing}
    (hel : ∀ i, (rl'.get i).map (·.element) = (rl.get i).map (·.element)) :
    layerRing fl rl' = layerRing fl rl := by
  simp only [layerRing]
  congr 1
  funext i
  have := hel i
  cases h : rl.get i with
  | none =>
    rw [h] at this
    rw [Option.map_eq_none_iff.1 this]
  | some x =>
    rw [h] at this
    obtain ⟨y, hy, hye⟩ := Option.map_eq_some_iff.1 this
    rw [hy]
    simp only [Option.bind_some, FaceRing.fe, hye]

/-- The face `f` under construction. -/
structure Rings (s : RingLoop P Q V E F) (f : Nat) (rings : List (List Nat)) : Prop where
  but : (layerFace s.plc.rings s.plc.faces).OkBut f
  fst : (layerFace s.plc.rings s.plc.faces).first f = some s.firstRing
  opn : Open (layerFace s.plc.rings s.plc.faces).next (layerFace s.plc.rings s.plc.faces).prev s.firstRing
    (faceMem s.plc f)
  last : s.prevRing = (faceMem s.plc f).getLast?.getD idMax
  has : List.Forall₂ (RingHas s.plc) (faceMem s.plc f) rings

/-- Inserting a new ring into the face, before its vertices. -/
theorem ringStep_mid {s : RingLoop P Q V E F} {f : Nat} {rings : List (List Nat)}
    {l : List ((Nat × Nat) × E)} (hb : Base s.plc) (hl : HasEdges s.plc l)
    (hok : (layerRing s.plc.faceEdges s.plc.rings).Ok) (hs : Rings s f rings)
    (hroom : s.plc.rings.top < idMax) :
    ∃ p first, (∀ vs, ringStep f s vs =
        (p.addVertices s.plc.rings.top vs).bind fun p => some ⟨p, first, s.plc.rings.top⟩) ∧
      Base p ∧ HasEdges p l ∧ (layerRing p.faceEdges p.rings).OkBut s.plc.rings.top ∧
      (p.rings.get s.plc.rings.top).map (·.element) = some (.faceEdge idMax) ∧
      ringMem p s.plc.rings.top = [] ∧ p.rings.top = s.plc.rings.top + 1 ∧
      Keeps s.plc.rings.top s.plc p ∧ (layerFace p.rings p.faces).OkBut f ∧
      (layerFace p.rings p.faces).first f = some first ∧
      Open (layerFace p.rings p.faces).next (layerFace p.rings p.faces).prev first
        (faceMem s.plc f ++ [s.plc.rings.top]) ∧
      faceMem p f = faceMem s.plc f ++ [s.plc.rings.top] ∧
      (∀ k, k ≠ f → faceMem p k = faceMem s.plc k) ∧ p.faces.top = s.plc.faces.top ∧
      (∀ k, (p.faces.get k).map (·.value) = (s.plc.faces.get k).map (·.value)) ∧
      (∀ k, (p.faces.get k).map (·.plane) = (s.plc.faces.get k).map (·.plane)) ∧
      p.faceEdges = s.plc.faceEdges ∧ p.edges = s.plc.edges ∧ p.defaultEdge = s.plc.defaultEdge := by
  set r := s.plc.rings.top with hr
  obtain ⟨rl1, hrl1⟩ := hb.fr.insert hroom (FaceRing.new f)
  obtain ⟨-, hf1, ht1, -, hg1⟩ := hb.fr.insert_some hrl1
  rw [← hr] at hrl1 ht1
  have hnew : rl1.get r = some (FaceRing.new f) := by rw [hg1, if_pos rfl]
  have hold : ∀ i < r, rl1.get i = s.plc.rings.get i := by
    intro i hi
    rw [hg1, if_neg (Nat.ne_of_lt hi)]
  have hrid : (rl1.get r).isSome := by rw [hnew]; rfl
  have hfl : f < s.plc.faces.top := by
    have := hs.fst
    simp only [layerFace] at this
    obtain ⟨x, hx, -⟩ := Option.map_eq_some_iff.1 this
    exact IdMap.lt_top hx
  have hnofe : ∀ i, (s.plc.faceEdges.get i).map (·.ring) ≠ some r := by
    intro i hi
    obtain ⟨x, fe, hx, -⟩ := fe_isSome.1 (hb.feRing i r hi)
    exact absurd (IdMap.lt_top hx) (by omega)
  have hmem0 : ∀ rl, (layerRing s.plc.faceEdges rl).mem r = [] := by
    intro rl
    rw [List.eq_nil_iff_forall_not_mem]
    intro i hi
    exact hnofe i (Layer.mem_mem.1 hi).2
  -- the state with the ring inserted
  have hb1 : Base { s.plc with rings := rl1 } := by
    refine ⟨hb.fv, hb.fe, hb.fl, hf1, hb.fs, hb.out, hb.inn, hb.on, hb.ends, hb.edgeMap, hb.feEdge, ?_, ?_, ?_, ?_⟩
    · intro i d hd
      have := hb.feRing i d hd
      obtain ⟨x, fe, hx, hxe⟩ := fe_isSome.1 this
      show ((rl1.get d).bind FaceRing.fe).isSome
      rw [hold d (IdMap.lt_top hx)]
      exact this
    · intro i k hk
      have hk' : (rl1.get i).map (·.face) = some k := hk
      rw [hg1] at hk'
      split at hk'
      · obtain rfl : f = k := Option.some.inj hk'
        exact hfl
      · exact hb.ringFace i k hk'
    · intro i v hv
      have hv' : (rl1.get i).map (·.element) = some (.vertex v) := hv
      rw [hg1] at hv'
      split at hv'
      · cases hv'
      · exact hb.iso i v hv'
    · intro v x hx
      show x = (isoRings rl1 v).getLast?.getD idMax
      have : isoRings rl1 v = isoRings s.plc.rings v := by
        rw [isoRings, ht1, List.range_succ, List.filter_append, List.filter_cons_of_neg (by rw [hnew]; simp [FaceRing.new]),
          List.filter_nil, List.append_nil, isoRings]
        exact List.filter_congr fun i hi => by rw [hold i (List.mem_range.1 hi)]
      rw [this]
      exact hb.back v x hx
  have hok1 : (layerRing s.plc.faceEdges rl1).OkBut r := by
    intro k o hk ho
    have ho' : (rl1.get k).bind FaceRing.fe = some o := ho
    rw [hg1, if_neg hk] at ho'
    exact hok k o ho'
  have hmemf : ∀ (rl : IdMap FaceRing) (fs : IdMap (Face Q F)) k,
      (∀ i, (rl.get i).map (·.face) = (rl1.get i).map (·.face)) → rl.top = rl1.top →
      (layerFace rl fs).mem k = faceMem s.plc k ++ if k = f then [r] else [] := by
    intro rl fs k hk ht
    refine Layer.mem_succ (L := layerFace s.plc.rings s.plc.faces) (L' := layerFace rl fs) (k := f) ?_ ?_ ?_ k
    · show rl.top = r + 1
      omega
    · show (rl.get r).map _ = _
      rw [hk, hnew]; rfl
    · intro i hi
      show (rl.get i).map _ = (s.plc.rings.get i).map _
      rw [hk, hold i hi]
  have hmemlt : ∀ k, ∀ i ∈ faceMem s.plc k, i < r := fun k i hi => Layer.lt_of_mem hi
  -- linking
  have hmid : ∃ p first,
      (if s.firstRing = idMax then do
          let faces ← s.plc.faces.upd f fun x => { x with ring := r }
          pure ({ s.plc with rings := rl1, faces }, r)
        else do
          let rings ← rl1.upd s.prevRing fun x => { x with next := r }
          let rings ← rings.upd r fun x => { x with prev := s.prevRing }
          pure ({ s.plc with rings }, s.firstRing)) = some (p, first) ∧
      (∃ rl fs, p = { s.plc with rings := rl, faces := fs } ∧ rl.Full ∧ fs.Full ∧ rl.top = rl1.top ∧
        fs.top = s.plc.faces.top ∧
        (∀ i, (rl.get i).map (·.element) = (rl1.get i).map (·.element)) ∧
        (∀ i, (rl.get i).map (·.face) = (rl1.get i).map (·.face)) ∧
        (∀ k, (fs.get k).map (·.value) = (s.plc.faces.get k).map (·.value)) ∧
        (∀ k, (fs.get k).map (·.plane) = (s.plc.faces.get k).map (·.plane))) ∧
      (layerFace p.rings p.faces).OkBut f ∧
      (layerFace p.rings p.faces).first f = some first ∧
      Open (layerFace p.rings p.faces).next (layerFace p.rings p.faces).prev first
        (faceMem s.plc f ++ [r]) := by
    rcases hs.opn with ⟨hnil, hm⟩ | ⟨t, ht, hch⟩
    · have hfs : (s.plc.faces.get f).isSome := hb.fs.live f hfl
      refine ⟨_, r, ?_, ⟨rl1, s.plc.faces.modify f fun x => { x with ring := r }, rfl, hf1, hb.fs.modify _ _,
        rfl, IdMap.top_modify _ _ _, fun _ => rfl, fun _ => rfl, ?_, ?_⟩, ?_, ?_, ?_⟩
      · rw [if_pos hm, IdMap.upd_eq _ hfs]; rfl
      · intro k; rw [map_modify]; intro _; rfl
      · intro k; rw [map_modify]; intro _; rfl
      · intro k o hk ho
        have ho' : (layerFace s.plc.rings s.plc.faces).first k = some o := by
          simp only [layerFace] at ho ⊢
          rwa [IdMap.get_modify, if_neg hk] at ho
        show Cyclic _ _ _ ((layerFace rl1 _).mem k)
        rw [hmemf rl1 _ k (fun _ => rfl) rfl, if_neg hk, List.append_nil]
        refine (hs.but k o hk ho').congr ?_ ?_ <;>
        · intro i hi
          simp only [layerFace]
          rw [hold i (hmemlt k i hi)]
      · show ((s.plc.faces.modify f _).get f).map _ = _
        obtain ⟨x, hx⟩ := Option.isSome_iff_exists.1 hfs
        rw [IdMap.get_modify, if_pos rfl, hx]; rfl
      · rw [hnil, List.nil_append]
        exact Open.single _ _ _
    · have hlast : ∃ q, faceMem s.plc f = q ++ [s.prevRing] := by
        have := hs.last
        obtain ⟨z, hz⟩ : ∃ z, (faceMem s.plc f).getLast? = some z := by
          rw [ht, List.getLast?_cons]; exact ⟨_, rfl⟩
        rw [hz, Option.getD_some] at this
        rw [this]
        exact List.getLast?_eq_some_iff.1 hz
      obtain ⟨q, hq⟩ := hlast
      have hprev : s.prevRing ∈ faceMem s.plc f := by rw [hq]; simp
      have hprevlt : s.prevRing < r := hmemlt f _ hprev
      have hfirst : s.firstRing ∈ faceMem s.plc f := by rw [ht]; simp
      have hne : s.firstRing ≠ idMax := by
        have := hmemlt f _ hfirst
        omega
      have hpl : (rl1.get s.prevRing).isSome := by
        rw [hold _ hprevlt]
        exact hb.fr.live _ hprevlt
      refine ⟨_, s.firstRing, ?_, ⟨(rl1.modify s.prevRing fun x => { x with next := r }).modify r
          fun x => { x with prev := s.prevRing }, s.plc.faces, rfl, (hf1.modify _ _).modify _ _, hb.fs,
        by rw [IdMap.top_modify, IdMap.top_modify], rfl, ?_, ?_, fun _ => rfl, fun _ => rfl⟩, ?_, ?_, ?_⟩
      · rw [if_neg hne, IdMap.upd_eq _ hpl]
        simp only [Option.bind_eq_bind, Option.bind_some]
        rw [IdMap.upd_eq _ (by rw [IdMap.isSome_modify]; exact hrid)]
        rfl
      · intro i; rw [map_modify, map_modify] <;> intro _ <;> rfl
      · intro i; rw [map_modify, map_modify] <;> intro _ <;> rfl
      · intro k o hk ho
        have ho' : (layerFace s.plc.rings s.plc.faces).first k = some o := ho
        show Cyclic _ _ _ ((layerFace ((rl1.modify s.prevRing fun x => { x with next := r }).modify r
          fun x => { x with prev := s.prevRing }) _).mem k)
        rw [hmemf _ _ k (by intro i; rw [map_modify, map_modify] <;> intro _ <;> rfl)
          (by rw [IdMap.top_modify, IdMap.top_modify]), if_neg hk, List.append_nil]
        have hdis : ∀ i ∈ faceMem s.plc k, i ≠ s.prevRing := by
          rintro i hi rfl
          have a := (Layer.mem_mem.1 hi).2
          rw [(Layer.mem_mem.1 hprev).2] at a
          exact hk (Option.some.inj a).symm
        refine (hs.but k o hk ho').congr ?_ ?_ <;>
        · intro i hi
          simp only [layerFace]
          rw [IdMap.get_modify, if_neg (Nat.ne_of_lt (hmemlt k i hi)), IdMap.get_modify,
            if_neg (hdis i hi), hold i (hmemlt k i hi)]
      · exact hs.fst
      · have ho1 : Open (layerFace rl1 s.plc.faces).next (layerFace rl1 s.plc.faces).prev s.firstRing
            (q ++ [s.prevRing]) := by
          rw [← hq]
          refine hs.opn.congr ?_ ?_ <;>
          · intro i hi
            simp only [layerFace]
            rw [hold i (hmemlt f i hi)]
        have ho2 := ho1.append (x := r) (by rw [← hq]; exact Layer.nodup_mem _ _) (by
          rw [← hq]; intro hx; exact lt_irrefl _ (hmemlt f _ hx))
        rw [hq]
        have e1 : (layerFace ((rl1.modify s.prevRing fun x => { x with next := r }).modify r
            fun x => { x with prev := s.prevRing }) s.plc.faces).next
            = Function.update (layerFace rl1 s.plc.faces).next s.prevRing (some r) := by
          simp only [layerFace]
          keepf; setf r; rfl
        have e2 : (layerFace ((rl1.modify s.prevRing fun x => { x with next := r }).modify r
            fun x => { x with prev := s.prevRing }) s.plc.faces).prev
            = Function.update (layerFace rl1 s.plc.faces).prev r (some s.prevRing) := by
          simp only [layerFace]
          setf s.prevRing; keepf; rfl
        rw [e1, e2]
        exact ho2
  obtain ⟨p, first, hm, ⟨rl, fs, rfl, k1, k2, k3, k4, k5, k6, k7, k8⟩, hbut, hfst, hopn⟩ := hmid
  have hlr : layerRing s.plc.faceEdges rl = layerRing s.plc.faceEdges rl1 := layerRing_congr k5
  refine ⟨_, first, ?_, hb1.of_rings k1 k2 k3 (le_of_eq k4.symm) k5 k6, hl, ?_, ?_, ?_, by show rl.top = _; omega, ?_, hbut, hfst,
    hopn, ?_, ?_, k4, k7, k8, rfl, rfl, rfl⟩
  · intro vs
    rw [ringStep_eq]
    simp only [Option.bind_eq_bind, hrl1, Option.bind_some]
    simp only [Option.bind_eq_bind] at hm
    by_cases hif : s.firstRing = idMax
    · rw [if_pos hif] at hm ⊢
      obtain ⟨a, ha, hm⟩ := Option.bind_eq_some_iff.1 hm
      simp only [Option.pure_def, Option.some.injEq, Prod.mk.injEq] at hm
      obtain ⟨hp, rfl⟩ := hm
      simp only [ha, Option.bind_some, Option.pure_def]
      rw [hp]
    · rw [if_neg hif] at hm ⊢
      obtain ⟨a, ha, hm⟩ := Option.bind_eq_some_iff.1 hm
      obtain ⟨b, hb', hm⟩ := Option.bind_eq_some_iff.1 hm
      simp only [Option.pure_def, Option.some.injEq, Prod.mk.injEq] at hm
      obtain ⟨hp, rfl⟩ := hm
      simp only [ha, hb', Option.bind_some, Option.pure_def]
      rw [hp]
  · show (layerRing s.plc.faceEdges rl).OkBut r
    rw [hlr]; exact hok1
  · show (rl.get r).map _ = _
    rw [k5, hnew]; rfl
  · exact hmem0 rl
  · refine ⟨rfl, fun _ => rfl, fun _ => rfl, fun _ _ h => h, fun _ _ h => h, ?_, ?_, rfl⟩
    · intro k hk; rfl
    · intro k hk x hx
      show (rl.get k).map _ = _
      rw [k5, hold k hk, hx]
  · have := hmemf rl fs f k6 k3
    rw [if_pos rfl] at this
    exact this
  · intro k hk
    have := hmemf rl fs k k6 k3
    rw [if_neg hk, List.append_nil] at this
    exact this

/-- What the loop over the rings of the face `f` has done. -/
structure RingsDone (f : Nat) (s s' : RingLoop P Q V E F) (l : List ((Nat × Nat) × E))
    (old new : List (List Nat)) : Prop where
  base : Base s'.plc
  edges : HasEdges s'.plc ((new.flatMap cyc).foldl (fun l vs => putNew l vs s.plc.defaultEdge) l)
  ok : (layerRing s'.plc.faceEdges s'.plc.rings).Ok
  rings : Rings s' f (old ++ new)
  keeps : Keeps s.plc.rings.top s.plc s'.plc
  mem : ∀ k, k ≠ f → faceMem s'.plc k = faceMem s.plc k
  ftop : s'.plc.faces.top = s.plc.faces.top
  value : ∀ k, (s'.plc.faces.get k).map (·.value) = (s.plc.faces.get k).map (·.value)
  plane : ∀ k, (s'.plc.faces.get k).map (·.plane) = (s.plc.faces.get k).map (·.plane)
  rtop : s'.plc.rings.top = s.plc.rings.top + new.length
  fetop : s'.plc.faceEdges.top ≤ s.plc.faceEdges.top + new.flatten.length
  etop : s'.plc.edges.top ≤ s.plc.edges.top + new.flatten.length

theorem ringStep_some {s s' : RingLoop P Q V E F} {f : Nat} {vs : List Nat} (hb : Base s.plc)
    (h : ringStep f s vs = some s') : s.plc.rings.top < idMax := by
  rw [ringStep_eq] at h
  simp only [Option.bind_eq_bind] at h
  obtain ⟨⟨rl, r⟩, hr, -⟩ := Option.bind_eq_some_iff.1 h
  exact (hb.fr.insert_some hr).2.2.2.1

theorem forall₂_imp {A B : Type} {R S : A → B → Prop} {l : List A} {l' : List B}
    (h : ∀ a b, a ∈ l → R a b → S a b) (hl : List.Forall₂ R l l') : List.Forall₂ S l l' := by
  induction hl with
  | nil => exact .nil
  | cons h1 _ ih =>
    exact .cons (h _ _ (by simp) h1) (ih fun a b ha => h a b (by simp [ha]))

/-- One ring. -/
theorem ringStep_done {s s' : RingLoop P Q V E F} {f : Nat} {rings : List (List Nat)} {vs : List Nat}
    {l : List ((Nat × Nat) × E)} (hb : Base s.plc) (hl : HasEdges s.plc l)
    (hok : (layerRing s.plc.faceEdges s.plc.rings).Ok) (hs : Rings s f rings)
    (h : ringStep f s vs = some s') :
    RingsDone f s s' l rings [vs] ∧ vs ≠ [] ∧ ∀ v ∈ vs, v < s.plc.vertices.top := by
  obtain ⟨p, first, he, b1, l1, o1, el, mm, rt, kp, fb, ff, fo, fm, fk, ft, fv, fp, e1, e2, e3⟩ :=
    ringStep_mid hb hl hok hs (ringStep_some hb h)
  rw [he vs] at h
  obtain ⟨p', hp', h⟩ := Option.bind_eq_some_iff.1 h
  simp only [Option.some.injEq] at h
  subst h
  obtain ⟨hd, hne, hv⟩ := addVertices_done b1 l1 o1 el mm rt hp'
  have hfm : ∀ k, faceMem p' k = faceMem p k := fun k => by rw [faceMem, hd.layerFace, faceMem]
  have hkp : Keeps s.plc.rings.top s.plc p' := kp.trans hd.keeps
  refine ⟨⟨hd.base, ?_, hd.ok, ⟨?_, ?_, ?_, ?_, ?_⟩, hkp, ?_, ?_, ?_, ?_, ?_, ?_, ?_⟩, hne, ?_⟩
  · have := hd.edges
    rw [e3] at this
    simpa using this
  · show (layerFace p'.rings p'.faces).OkBut f
    rw [hd.layerFace]; exact fb
  · show (layerFace p'.rings p'.faces).first f = some first
    rw [hd.layerFace]; exact ff
  · show Open (layerFace p'.rings p'.faces).next (layerFace p'.rings p'.faces).prev first (faceMem p' f)
    rw [hfm, hd.layerFace, fm]; exact fo
  · show s.plc.rings.top = (faceMem p' f).getLast?.getD idMax
    rw [hfm, fm]; simp
  · show List.Forall₂ (RingHas p') (faceMem p' f) _
    rw [hfm, fm]
    refine List.rel_append ?_ (.cons hd.has .nil)
    exact forall₂_imp (fun r ws hr hrw => hrw.keeps hkp (Layer.lt_of_mem hr)) hs.has
  · intro k hk
    rw [show faceMem _ k = _ from hfm k, fk k hk]
  · show p'.faces.top = _
    rw [hd.faces, ft]
  · intro k
    show (p'.faces.get k).map _ = _
    rw [hd.faces, fv]
  · intro k
    show (p'.faces.get k).map _ = _
    rw [hd.faces, fp]
  · show p'.rings.top = _
    rw [hd.rings, rt]; rfl
  · have := hd.fetop
    rw [e1] at this
    simpa using this
  · have := hd.etop
    rw [e2] at this
    simpa using this
  · intro v hv'
    have := hv v hv'
    rwa [kp.vtop] at this

theorem ringStep_run {s : RingLoop P Q V E F} {f : Nat} {rings : List (List Nat)} {vs : List Nat}
    {l : List ((Nat × Nat) × E)} (hb : Base s.plc) (hl : HasEdges s.plc l)
    (hok : (layerRing s.plc.faceEdges s.plc.rings).Ok) (hs : Rings s f rings) (hvs : vs ≠ [])
    (hv : ∀ v ∈ vs, v < s.plc.vertices.top) (hr : s.plc.rings.top < idMax)
    (he : s.plc.edges.top + vs.length ≤ idMax) (hf : s.plc.faceEdges.top + vs.length ≤ idMax) :
    ∃ s', ringStep f s vs = some s' := by
  obtain ⟨p, first, hst, b1, l1, o1, el, mm, rt, kp, fb, ff, fo, fm, fk, ft, fv, fp, e1, e2, e3⟩ :=
    ringStep_mid hb hl hok hs hr
  obtain ⟨p', hp'⟩ := addVertices_run b1 l1 o1 el mm hvs (by rwa [kp.vtop]) (by rwa [e2]) (by rwa [e1])
  exact ⟨_, by rw [hst, hp']; rfl⟩

theorem rings_done {f : Nat} : ∀ {new : List (List Nat)} {s s' : RingLoop P Q V E F}
    {l : List ((Nat × Nat) × E)} {old : List (List Nat)}, Base s.plc → HasEdges s.plc l →
    (layerRing s.plc.faceEdges s.plc.rings).Ok → Rings s f old → new.foldlM (ringStep f) s = some s' →
    RingsDone f s s' l old new ∧ ∀ vs ∈ new, vs ≠ [] ∧ ∀ v ∈ vs, v < s.plc.vertices.top := by
  intro new
  induction new with
  | nil =>
    intro s s' l old hb hl hok hs h
    simp only [List.foldlM_nil, Option.pure_def, Option.some.injEq] at h
    subst h
    exact ⟨⟨hb, hl, hok, by simpa using hs, Keeps.rfl, fun _ _ => rfl, rfl, fun _ => rfl, fun _ => rfl, rfl,
      by simp, by simp⟩, by simp⟩
  | cons vs new ih =>
    intro s s' l old hb hl hok hs h
    rw [List.foldlM_cons, Option.bind_eq_bind] at h
    obtain ⟨s1, h1, h⟩ := Option.bind_eq_some_iff.1 h
    obtain ⟨d1, hne, hv⟩ := ringStep_done hb hl hok hs h1
    obtain ⟨d2, hrest⟩ := ih d1.base d1.edges d1.ok d1.rings h
    refine ⟨⟨d2.base, ?_, d2.ok, ?_, d1.keeps.trans (d2.keeps.le (by rw [d1.rtop]; omega)),
      fun k hk => (d2.mem k hk).trans (d1.mem k hk), d2.ftop.trans d1.ftop,
      fun k => (d2.value k).trans (d1.value k), fun k => (d2.plane k).trans (d1.plane k), ?_, ?_, ?_⟩, ?_⟩
    · have := d2.edges
      rw [d1.keeps.default] at this
      simpa [List.foldl_append] using this
    · simpa using d2.rings
    · rw [d2.rtop, d1.rtop]
      simp only [List.length_cons, List.length_nil]
      omega
    · have a := d1.fetop
      have b := d2.fetop
      simp only [List.flatten_cons, List.length_append, List.flatten_nil, List.length_nil] at a b ⊢
      omega
    · have a := d1.etop
      have b := d2.etop
      simp only [List.flatten_cons, List.length_append, List.flatten_nil, List.length_nil] at a b ⊢
      omega
    · intro ws hws
      rcases List.mem_cons.1 hws with rfl | hws
      · exact ⟨hne, hv⟩
      · have := hrest ws hws
        rwa [d1.keeps.vtop] at this

theorem rings_run {f : Nat} : ∀ {new : List (List Nat)} {s : RingLoop P Q V E F}
    {l : List ((Nat × Nat) × E)} {old : List (List Nat)}, Base s.plc → HasEdges s.plc l →
    (layerRing s.plc.faceEdges s.plc.rings).Ok → Rings s f old →
    (∀ vs ∈ new, vs ≠ [] ∧ ∀ v ∈ vs, v < s.plc.vertices.top) →
    s.plc.rings.top + new.length ≤ idMax → s.plc.edges.top + new.flatten.length ≤ idMax →
    s.plc.faceEdges.top + new.flatten.length ≤ idMax → ∃ s', new.foldlM (ringStep f) s = some s' := by
  intro new
  induction new with
  | nil => intro s l old _ _ _ _ _ _ _ _; exact ⟨s, rfl⟩
  | cons vs new ih =>
    intro s l old hb hl hok hs hv hr he hf
    simp only [List.length_cons, List.flatten_cons, List.length_append] at hr he hf
    obtain ⟨s1, h1⟩ := ringStep_run hb hl hok hs (hv vs (by simp)).1 (hv vs (by simp)).2 (by omega)
      (by omega) (by omega)
    obtain ⟨d1, -, -⟩ := ringStep_done hb hl hok hs h1
    have a1 := d1.rtop
    have a2 := d1.etop
    have a3 := d1.fetop
    simp only [List.length_cons, List.flatten_cons, List.length_append, List.flatten_nil, List.length_nil] at a1 a2 a3
    obtain ⟨s', hs'⟩ := ih d1.base d1.edges d1.ok d1.rings (by
      intro ws hws
      have := hv ws (by simp [hws])
      rwa [d1.keeps.vtop]) (by omega) (by omega) (by omega)
    exact ⟨s', by rw [List.foldlM_cons, Option.bind_eq_bind, h1, Option.bind_some, hs']⟩

end Tet.Plc
