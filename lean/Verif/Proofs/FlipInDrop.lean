import Verif.Proofs.FlipInBase

/-!
# Filling a cavity: marking the surface, removing the inside
-/

namespace Tet
open Spec
variable {P V T : Type}

/-! ## Changing edges -/

/-- Only the edges have changed, and no edge was added or removed. -/
structure EStep (m m' : Mesh P V T) : Prop where
  eq : m' = { m with edges := m'.edges }
  wf : m.edges.WF → m'.edges.WF
  size : m'.edges.size = m.edges.size

theorem EStep.refl (m : Mesh P V T) : EStep m m := ⟨rfl, id, rfl⟩

theorem EStep.trans {m m1 m2 : Mesh P V T} (h : EStep m m1) (h' : EStep m1 m2) : EStep m m2 := by
  refine ⟨?_, fun hw => h'.wf (h.wf hw), h'.size.trans h.size⟩
  rw [h'.eq]
  rw [h.eq]

theorem Mesh.modEdge_step (m : Mesh P V T) {e ue} (f : UEdge → UEdge) (h : m.edges.get e = some ue) :
    ∃ m', m.modEdge e f = some m' ∧ EStep m m' ∧
      ∀ j, m'.edges.get j = if j = e then some (f ue) else m.edges.get j := by
  refine ⟨{ m with edges := m.edges.modify e f }, by simp [modEdge, h],
    ⟨rfl, fun hw => hw.modify e f, IdMap.size_modify _ _ _⟩, ?_⟩
  intro j
  simp only [IdMap.get_modify]
  split_ifs with hj
  · subst hj; rw [h]; rfl
  · rfl

/-- One of the three edges of the triangle of a walker. -/
def Tet.triEdge (t : Tet T) (c : Code) (e : EId) : Prop :=
  e = t.undirEdge c ∨ e = t.undirEdge (_root_.Tet.nfe c) ∨ e = t.undirEdge (_root_.Tet.pfe c)

theorem flag3 (p q r s : Prop) [Decidable p] [Decidable q] [Decidable r] [Decidable s] (hs : s ↔ p ∨ q ∨ r) (b : Bool) (ue : UEdge) :
    (fun ue : UEdge => if r then { ue with boundary := b } else ue)
      ((fun ue : UEdge => if q then { ue with boundary := b } else ue)
        ((fun ue : UEdge => if p then { ue with boundary := b } else ue) ue)) =
      if s then { ue with boundary := b } else ue := by
  by_cases h1 : p <;> by_cases h2 : q <;> by_cases h3 : r <;> simp [h1, h2, h3, hs]

open Classical in
theorem flagEdges_step (b : Bool) (m : Mesh P V T) {w : Walker} {t} (ht : m.tets.get w.tet = some t)
    (he : ∀ c, (c = w.edge ∨ c = _root_.Tet.nfe w.edge ∨ c = _root_.Tet.pfe w.edge) →
      ∃ ue, m.edges.get (t.undirEdge c) = some ue) :
    ∃ m', m.flagEdges b w = some m' ∧ EStep m m' ∧ ∀ e, m'.edges.get e =
      (m.edges.get e).map fun ue => if t.triEdge w.edge e then { ue with boundary := b } else ue := by
  have step : ∀ (m1 : Mesh P V T) (c : Code), (c = w.edge ∨ c = _root_.Tet.nfe w.edge ∨ c = _root_.Tet.pfe w.edge) → EStep m m1 → (∀ e, (m1.edges.get e).isSome = (m.edges.get e).isSome) →
      ∃ m2, Mesh.flagEdge b m1 ⟨w.tet, c⟩ = some m2 ∧ EStep m m2 ∧
        (∀ e, (m2.edges.get e).isSome = (m.edges.get e).isSome) ∧
        ∀ e, m2.edges.get e = (m1.edges.get e).map fun ue => if e = t.undirEdge c then { ue with boundary := b } else ue := by
    intro m1 c hcc hs hk
    have ht1 : m1.tets.get w.tet = some t := by rw [hs.eq]; exact ht
    obtain ⟨ue, hue⟩ := he c hcc
    obtain ⟨ue1, hue1⟩ : ∃ ue1, m1.edges.get (t.undirEdge c) = some ue1 := by
      rw [← Option.isSome_iff_exists, hk, hue]; rfl
    obtain ⟨m2, h1, h2, h3⟩ := m1.modEdge_step (fun ue => { ue with boundary := b }) hue1
    refine ⟨m2, ?_, hs.trans h2, ?_, ?_⟩
    · simp [Mesh.flagEdge, Mesh.undirEdge, ht1, h1]
    · intro e
      rw [h3]
      split_ifs with hc
      · rw [hc, hue]; rfl
      · exact hk e
    · intro e
      rw [h3]
      by_cases hc : e = t.undirEdge c
      · simp [hc, hue1]
      · simp [hc]
  obtain ⟨m1, a1, a2, a3, a4⟩ := step m w.edge (.inl rfl) (.refl m) (fun _ => rfl)
  obtain ⟨m2, b1, b2, b3, b4⟩ := step m1 (_root_.Tet.nfe w.edge) (.inr (.inl rfl)) a2 a3
  obtain ⟨m3, c1, c2, c3, c4⟩ := step m2 (_root_.Tet.pfe w.edge) (.inr (.inr rfl)) b2 b3
  refine ⟨m3, ?_, c2, ?_⟩
  · simp only [Mesh.flagEdges, List.foldlM_cons, List.foldlM_nil]
    rw [show Mesh.flagEdge b m w = some m1 from a1]
    simp only [Option.bind_eq_bind, Option.bind_some]
    rw [show Mesh.flagEdge b m1 w.nfe = some m2 from b1]
    simp only [Option.bind_some]
    rw [show Mesh.flagEdge b m2 w.pfe = some m3 from c1]
    rfl
  · intro e
    rw [c4, b4, a4]
    cases m.edges.get e with
    | none => rfl
    | some ue =>
      exact congrArg some (flag3 _ _ _ (t.triEdge w.edge e) Iff.rfl b ue)

/-! ## Marking -/

/-- The edge is on the triangle of one of the walkers. -/
def Touched (m : Mesh P V T) (L : List Walker) (e : EId) : Prop :=
  ∃ w ∈ L, ∃ t, m.tets.get w.tet = some t ∧ t.triEdge w.edge e

theorem touched_nil (m : Mesh P V T) (e : EId) : ¬ Touched m [] e := by simp [Touched]

theorem touched_concat (m : Mesh P V T) (L : List Walker) {w : Walker} {t} (ht : m.tets.get w.tet = some t) (e : EId) :
    Touched m (L ++ [w]) e ↔ Touched m L e ∨ t.triEdge w.edge e := by
  simp only [Touched, List.mem_append, List.mem_singleton]
  constructor
  · rintro ⟨x, hx | rfl, h⟩
    · exact .inl ⟨x, hx, h⟩
    · obtain ⟨t', h1, h2⟩ := h
      rw [ht] at h1
      cases h1
      exact .inr h2
  · rintro (⟨x, hx, h⟩ | h)
    · exact ⟨x, .inl hx, h⟩
    · exact ⟨w, .inr rfl, t, ht, h⟩

/-- Only tets and edges have changed. -/
structure TEStep (m m' : Mesh P V T) : Prop where
  eq : m' = { m with tets := m'.tets, edges := m'.edges }
  twf : m.tets.WF → m'.tets.WF
  ewf : m.edges.WF → m'.edges.WF

theorem TEStep.refl (m : Mesh P V T) : TEStep m m := ⟨rfl, id, id⟩

theorem TEStep.trans {m m1 m2 : Mesh P V T} (h : TEStep m m1) (h' : TEStep m1 m2) : TEStep m m2 := by
  refine ⟨?_, fun hw => h'.twf (h.twf hw), fun hw => h'.ewf (h.ewf hw)⟩
  rw [h'.eq]
  rw [h.eq]

theorem TStep.te {m m1 : Mesh P V T} (h : TStep m m1) : TEStep m m1 :=
  ⟨by rw [h.eq], h.wf, by rw [h.eq]; exact id⟩

theorem EStep.te {m m1 : Mesh P V T} (h : EStep m m1) : TEStep m m1 :=
  ⟨by rw [h.eq], by rw [h.eq]; exact id, h.wf⟩

open Classical in
theorem fiMark_fold {m : Mesh P V T} (hm : ∀ k t c, m.tets.get k = some t →
    ∃ ue, m.edges.get (t.undirEdge c) = some ue ∧ ue.vertices = sorted2 (t.edge c)) (L : List Walker) :
    (∀ w ∈ L, (m.tets.get w.tet).isSome) →
    ∃ m', L.foldlM Mesh.fiMark m = some m' ∧ TEStep m m' ∧ m'.tets.size = m.tets.size ∧ m'.edges.size = m.edges.size ∧
      (∀ k, m'.tets.get k = (m.tets.get k).map fun t => if k ∈ L.map (·.tet) then t.setBoundary true else t) ∧
      ∀ e, m'.edges.get e = (m.edges.get e).map fun ue => if Touched m L e then { ue with boundary := true } else ue := by
  induction L using List.reverseRecOn with
  | nil =>
    intro _
    exact ⟨m, rfl, .refl m, rfl, rfl, fun k => by simp, fun e => by simp [touched_nil]⟩
  | append_singleton L w ih =>
    intro hL
    obtain ⟨m1, h1, h2, h3, h4, h5, h6⟩ := ih fun x hx => hL x (by simp [hx])
    obtain ⟨t, ht⟩ := Option.isSome_iff_exists.1 (hL w (by simp))
    have ht1 := h5 w.tet
    rw [ht, Option.map_some] at ht1
    obtain ⟨m2, g1, g2, g3⟩ := m1.modTet_step (·.setBoundary true) ht1
    have ht2 := g3 w.tet
    rw [if_pos rfl] at ht2
    have hund : ∀ c, Tet.undirEdge ((fun x => Tet.setBoundary true x)
        (if w.tet ∈ L.map (·.tet) then t.setBoundary true else t)) c = t.undirEdge c := by
      intro c; split_ifs <;> rfl
    have hedges : ∀ e, m2.edges.get e = m1.edges.get e := by intro e; rw [g2.eq]
    obtain ⟨m3, k1, k2, k3⟩ := flagEdges_step true m2 ht2 (by
      intro c _
      obtain ⟨ue, hue, -⟩ := hm _ t c ht
      rw [hund, hedges, h6, hue]
      exact ⟨_, rfl⟩)
    refine ⟨m3, ?_, h2.trans (g2.te.trans k2.te), ?_, ?_, ?_, ?_⟩
    · rw [List.foldlM_append, h1]
      simp only [Option.bind_eq_bind, Option.bind_some, List.foldlM_cons, List.foldlM_nil, Mesh.fiMark]
      rw [g1, Option.bind_some, k1]
      rfl
    · rw [show m3.tets = m2.tets by rw [k2.eq], g2.size, h3]
    · rw [k2.size, show m2.edges = m1.edges by rw [g2.eq], h4]
    · intro k
      rw [show m3.tets = m2.tets by rw [k2.eq], g3, h5]
      by_cases hk : k = w.tet
      · subst hk
        rw [ht, if_pos rfl]
        simp only [Option.map_some, List.map_append, List.map_cons, List.map_nil, List.mem_append, List.mem_singleton,
          or_true, if_true]
        split_ifs <;> rfl
      · rw [if_neg hk]
        simp [hk]
    · intro e
      rw [k3, hedges, h6]
      cases m.edges.get e with
      | none => rfl
      | some ue =>
        simp only [Option.map_some, Option.some.injEq]
        have : Tet.triEdge ((fun x => Tet.setBoundary true x)
            (if w.tet ∈ L.map (·.tet) then t.setBoundary true else t)) w.edge e ↔ t.triEdge w.edge e := by
          simp only [Tet.triEdge, hund]
        rw [if_congr this rfl rfl, if_congr (touched_concat m L ht e) rfl rfl]
        by_cases c1 : Touched m L e <;> by_cases c2 : t.triEdge w.edge e <;> simp [c1, c2]

/-! ## Removing -/

open Classical in
theorem fiDropEdges_fold (L : List EId) : ∀ (m : Mesh P V T), m.edges.WF → ∃ m', L.foldlM Mesh.fiDropEdge m = some m' ∧
    m' = { m with edges := m'.edges } ∧ m'.edges.WF ∧ m'.edges.size ≤ m.edges.size ∧
    ∀ e, m'.edges.get e = if e ∈ L ∧ ∃ ue, m.edges.get e = some ue ∧ ue.boundary = false then none else m.edges.get e := by
  induction L with
  | nil => intro m hw; exact ⟨m, rfl, rfl, hw, le_rfl, by simp⟩
  | cons e0 L ih =>
    intro m hw
    have step : ∃ m1, m.fiDropEdge e0 = some m1 ∧ m1 = { m with edges := m1.edges } ∧ m1.edges.WF ∧
        m1.edges.size ≤ m.edges.size ∧
        ∀ e, m1.edges.get e = if e = e0 ∧ ∃ ue, m.edges.get e = some ue ∧ ue.boundary = false then none
          else m.edges.get e := by
      cases hg : m.edges.get e0 with
      | none =>
        refine ⟨m, by simp [Mesh.fiDropEdge, hg], rfl, hw, le_rfl, fun e => ?_⟩
        rw [if_neg]
        rintro ⟨rfl, ue, h, -⟩
        rw [hg] at h; cases h
      | some ue =>
        cases hb : ue.boundary with
        | true =>
          refine ⟨m, by simp [Mesh.fiDropEdge, hg, hb], rfl, hw, le_rfl, fun e => ?_⟩
          rw [if_neg]
          rintro ⟨rfl, ue', h, h'⟩
          rw [hg] at h; cases h
          rw [hb] at h'; cases h'
        | false =>
          obtain ⟨r, r1, r2, r3, r4, -⟩ := IdMap.remove_spec e0 hw
          refine ⟨{ m with edges := r }, by simp [Mesh.fiDropEdge, hg, hb, r1], rfl, r2, by simp only; omega, fun e => ?_⟩
          rw [r3]
          by_cases he : e = e0
          · subst he
            rw [if_pos rfl, if_pos ⟨rfl, ue, hg, hb⟩]
          · rw [if_neg he, if_neg (fun h => he h.1)]
    obtain ⟨m1, a1, a2, a3, a4, a5⟩ := step
    obtain ⟨m2, b1, b2, b3, b4, b5⟩ := ih m1 a3
    refine ⟨m2, ?_, ?_, b3, b4.trans a4, ?_⟩
    · rw [List.foldlM_cons, a1]; exact b1
    · rw [b2]; rw [a2]
    · intro e
      rw [b5, a5]
      by_cases he : e = e0
      · subst he
        by_cases hc : ∃ ue, m.edges.get e = some ue ∧ ue.boundary = false
        · simp [hc]
        · simp [hc]
      · simp [he]

open Classical in
/-- The removing loop. -/
theorem fiDrop_fold (m : Mesh P V T) (hT : m.tets.WF) (hE : m.edges.WF) (L : List TId) : L.Nodup →
    (∀ k ∈ L, (m.tets.get k).isSome) →
    ∃ m', L.foldlM Mesh.fiDrop m = some m' ∧ TEStep m m' ∧
      m'.tets.size + (L.filter fun k => decide (∃ t, m.tets.get k = some t ∧ t.flags.boundary = false)).length = m.tets.size ∧
      m'.edges.size ≤ m.edges.size ∧
      (∀ k, m'.tets.get k = if k ∈ L ∧ ∃ t, m.tets.get k = some t ∧ t.flags.boundary = false then none else m.tets.get k) ∧
      ∀ e, m'.edges.get e = if (∃ k ∈ L, ∃ t i, m.tets.get k = some t ∧ t.edges i = e) ∧
        ∃ ue, m.edges.get e = some ue ∧ ue.boundary = false then none else m.edges.get e := by
  induction L using List.reverseRecOn with
  | nil =>
    intro _ _
    exact ⟨m, rfl, .refl m, by simp, le_rfl, fun k => by simp, fun e => by simp⟩
  | append_singleton L k ih =>
    intro hn hL
    have hkL : k ∉ L := by
      have := List.nodup_append.1 hn
      exact fun h => this.2.2 k h k (by simp) rfl
    obtain ⟨m1, h1, h2, h3, h4, h5, h6⟩ := ih (List.nodup_append.1 hn).1 fun x hx => hL x (by simp [hx])
    obtain ⟨t, ht⟩ := Option.isSome_iff_exists.1 (hL k (by simp))
    have ht1 := h5 k
    rw [if_neg (fun h => hkL h.1), ht] at ht1
    obtain ⟨m2, g1, g2, g3, g4, g5⟩ := fiDropEdges_fold ((List.finRange 6).map t.edges) m1 (h2.ewf hE)
    have hmem : ∀ e, e ∈ (List.finRange 6).map t.edges ↔ ∃ i, t.edges i = e := by simp
    have hedges : ∀ e, m2.edges.get e = if (∃ k' ∈ L ++ [k], ∃ t i, m.tets.get k' = some t ∧ t.edges i = e) ∧
        ∃ ue, m.edges.get e = some ue ∧ ue.boundary = false then none else m.edges.get e := by
      intro e
      rw [g5, h6]
      simp only [hmem]
      by_cases hc : ∃ ue, m.edges.get e = some ue ∧ ue.boundary = false
      · by_cases ha : ∃ k' ∈ L, ∃ t i, m.tets.get k' = some t ∧ t.edges i = e
        · have hb : ∃ k' ∈ L ++ [k], ∃ t i, m.tets.get k' = some t ∧ t.edges i = e := by
            obtain ⟨k', hk', r⟩ := ha
            exact ⟨k', by simp [hk'], r⟩
          rw [if_pos (show (∃ k' ∈ L, ∃ t i, m.tets.get k' = some t ∧ t.edges i = e) ∧ _ from ⟨ha, hc⟩), ite_self, if_pos ⟨hb, hc⟩]
        · rw [if_neg (show ¬ ((∃ k' ∈ L, ∃ t i, m.tets.get k' = some t ∧ t.edges i = e) ∧ _) from fun h => ha h.1)]
          by_cases hi : ∃ i, t.edges i = e
          · obtain ⟨i, hi'⟩ := hi
            rw [if_pos ⟨⟨i, hi'⟩, hc⟩, if_pos ⟨⟨k, by simp, t, i, ht, hi'⟩, hc⟩]
          · rw [if_neg (fun h => hi h.1), if_neg]
            rintro ⟨⟨k', hk', t', i, h7, h8⟩, -⟩
            rcases List.mem_append.1 hk' with hk' | hk'
            · exact ha ⟨k', hk', t', i, h7, h8⟩
            · rw [List.mem_singleton.1 hk', ht] at h7
              cases h7
              exact hi ⟨i, h8⟩
      · rw [if_neg (show ¬ (_ ∧ ∃ ue, m.edges.get e = some ue ∧ ue.boundary = false) from fun h => hc h.2), if_neg (fun h => hc h.2),
          if_neg (fun h => hc h.2)]
    have htets : m2.tets = m1.tets := by rw [g2]
    have te2 : TEStep m1 m2 := ⟨by rw [g2], by rw [htets]; exact id, fun _ => g3⟩
    have hex : ∀ b, t.flags.boundary = b → ((∃ t', m.tets.get k = some t' ∧ t'.flags.boundary = false) ↔ b = false) := by
      intro b hb
      rw [ht]
      simp [hb]
    cases hb : t.flags.boundary with
    | true =>
      refine ⟨m2, ?_, h2.trans te2, ?_, ?_, ?_, hedges⟩
      · rw [List.foldlM_append, h1]
        simp only [Option.bind_eq_bind, Option.bind_some, List.foldlM_cons, List.foldlM_nil, Mesh.fiDrop, ht1]
        rw [g1]
        simp [hb]
      · rw [htets, List.filter_append]
        simpa [ht, hb] using h3
      · exact (g4.trans h4)
      · intro j
        rw [htets, h5]
        by_cases hj : j = k
        · subst hj
          simp [ht, hb]
        · simp [hj]
    | false =>
      obtain ⟨r, r1, r2, r3, r4, -⟩ := IdMap.remove_spec k (m := m2.tets) (htets ▸ h2.twf hT)
      have te3 : TEStep m2 { m2 with tets := r } := ⟨rfl, fun _ => r2, id⟩
      refine ⟨{ m2 with tets := r }, ?_, h2.trans (te2.trans te3), ?_, ?_, ?_, hedges⟩
      · rw [List.foldlM_append, h1]
        simp only [Option.bind_eq_bind, Option.bind_some, List.foldlM_cons, List.foldlM_nil, Mesh.fiDrop, ht1]
        rw [g1]
        simp [hb, r1]
      · rw [htets, ht1] at r4
        rw [List.filter_append, List.length_append]
        have : (List.filter (fun k => decide (∃ t, m.tets.get k = some t ∧ t.flags.boundary = false)) [k]).length = 1 := by
          simp [ht, hb]
        rw [this]
        simp only [Option.isSome_some, if_true] at r4
        show r.size + _ = _
        omega
      · exact (g4.trans h4)
      · intro j
        show r.get j = _
        rw [r3, htets, h5]
        by_cases hj : j = k
        · subst hj
          simp [ht, hb]
        · simp [hj]

end Tet
