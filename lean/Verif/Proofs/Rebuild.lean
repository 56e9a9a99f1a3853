import Verif.Proofs.InsertTet

/-!
# A mesh with the tets of a consistent mesh is consistent
-/

namespace Tet
open Spec
variable {P V T : Type}

/-- The walkers have the same vertices. -/
def Corr (M M' : TMap T) (w w' : Walker) : Prop := ∃ t t', M w.tet = some t ∧ M' w'.tet = some t' ∧ t'.tet w'.edge = t.tet w.edge

theorem tri_twin (t : Tet T) (e : Code) : t.tri (twin e) = (t.second e, t.first e, t.fourth e) := by
  have : ∀ e, firstIdx (twin e) = secondIdx e ∧ secondIdx (twin e) = firstIdx e ∧ thirdIdx (twin e) = face e := by decide
  obtain ⟨h1, h2, h3⟩ := this e
  simp only [Tet.tri, Tet.first, Tet.second, Tet.third, Tet.fourth, h1, h2, h3]

theorem hasTet_at {m : Mesh P V T} {k t} (h : m.tets.get k = some t) (e : Code) : HasTet m (t.tet e) :=
  ⟨⟨k, e⟩, Mesh.tet4_iff.2 ⟨t, h, rfl⟩⟩

theorem Corr.adj {g x : Mesh P V T} (hg : Consistent g) (hx : AdjT x.tets.get) (same : ∀ p, HasTet x p → HasTet g p) {w w' : Walker}
    {t t'} (h1 : g.tets.get w.tet = some t) (h2 : x.tets.get w'.tet = some t') (h : t'.tet w'.edge = t.tet w.edge) :
    Corr g.tets.get x.tets.get (t.adj (twin w.edge)) (t'.adj (twin w'.edge)) := by
  obtain ⟨u, g1, -, g2⟩ := hg.toT.adj _ t (twin w.edge) h1
  obtain ⟨u', g3, -, g4⟩ := hx _ t' (twin w'.edge) h2
  refine ⟨u, u', g1, g3, ?_⟩
  refine same_of_tri hg (same _ (hasTet_at g3 0)) (hasTet_at g1 0) ?_
  have k1 := tri_twin t w.edge
  have k2 := tri_twin t' w'.edge
  simp only [Tet.tri, Tet.tet, Prod.mk.injEq] at k1 k2 h
  rw [g2, g4, k1.1, k1.2.1, k1.2.2, k2.1, k2.2.1, k2.2.2, h.1, h.2.1, h.2.2.2]

theorem Corr.unique {M M' : TMap T} (hu : TriUniqueT M') {w a b : Walker} (h : Corr M M' w a) (h' : Corr M M' w b) : a = b := by
  obtain ⟨t, t', h1, h2, h3⟩ := h
  obtain ⟨u, u', h4, h5, h6⟩ := h'
  obtain rfl := Option.some.inj (h4.symm.trans h1)
  have := hu _ _ _ _ _ _ h5 h2 (by
    have := h3.trans h6.symm
    simp only [Tet.tet, Tet.tri, Prod.mk.injEq] at this ⊢
    exact ⟨this.1, this.2.1, this.2.2.1⟩)
  obtain ⟨k, e⟩ := a
  obtain ⟨k', e'⟩ := b
  obtain ⟨rfl, rfl⟩ := this
  rfl

theorem Corr.ex {g x : Mesh P V T} (full : ∀ p, HasTet g p → HasTet x p) {w : Walker} {t} (h : g.tets.get w.tet = some t) :
    ∃ (w' : Walker) (t' : Tet T), x.tets.get w'.tet = some t' ∧ t'.tet w'.edge = t.tet w.edge := by
  obtain ⟨w', hw'⟩ := full _ (hasTet_at h w.edge)
  obtain ⟨t', h1, h2⟩ := Mesh.tet4_iff.1 hw'
  exact ⟨w', t', h1, h2⟩

/-- Edges have one ring of tets if they do in a mesh with the same tets. -/
theorem oneRing_of {g x : Mesh P V T} (hg : Consistent g) (hx : AdjT x.tets.get) (hu : TriUniqueT x.tets.get)
    (same : ∀ p, HasTet x p ↔ HasTet g p) : OneRingT x.tets.get := by
  have key : ∀ {a b}, RingT g.tets.get a b → ∀ a', Corr g.tets.get x.tets.get a a' →
      ∃ b', RingT x.tets.get a' b' ∧ Corr g.tets.get x.tets.get b b' := by
    intro a b h
    induction h with
    | refl => exact fun a' ha => ⟨a', .refl _, ha⟩
    | @step b t _ hm ih =>
      intro a' ha
      obtain ⟨b', h1, u, t', h2, h3, h4⟩ := ih a' ha
      obtain rfl := Option.some.inj (h2.symm.trans hm)
      exact ⟨_, .step h1 h3, Corr.adj hg hx (fun p => (same p).1) hm h3 h4⟩
    | @back c t _ hm ih =>
      intro a' ha
      obtain ⟨b', h1, h2⟩ := ih a' ha
      obtain ⟨c', t', h3, h4⟩ := Corr.ex (fun p => (same p).2) hm
      have h5 := Corr.adj hg hx (fun p => (same p).1) hm h3 h4
      obtain rfl := Corr.unique hu h2 h5
      exact ⟨c', .back h1 h3, t, t', hm, h3, h4⟩
  intro k t e k' t' e' h1 h2 h3
  obtain ⟨w, hw⟩ := (same _).1 (hasTet_at h1 e)
  obtain ⟨w', hw'⟩ := (same _).1 (hasTet_at h2 e')
  obtain ⟨u, g1, g2⟩ := Mesh.tet4_iff.1 hw
  obtain ⟨u', g3, g4⟩ := Mesh.tet4_iff.1 hw'
  have hr : RingT g.tets.get w w' := hg.toT.ring _ u w.edge _ u' w'.edge g1 g3 (by
    simp only [Tet.tet, Tet.edge, Prod.mk.injEq] at g2 g4 h3 ⊢
    exact ⟨by rw [g2.1, g4.1, h3.1], by rw [g2.2.1, g4.2.1, h3.2]⟩)
  obtain ⟨b', h5, h6⟩ := key hr ⟨k, e⟩ ⟨u, t, g1, h1, g2.symm⟩
  obtain rfl := Corr.unique hu h6 (b := ⟨k', e'⟩) ⟨u', t', g3, h2, g4.symm⟩
  exact h5

variable {N Q : VId × VId → Prop} {em : Mesh.EdgeMap}

/-- The hole is closed. -/
theorem Part.consistent {g x : Mesh P V T} (hg : Consistent g) (h : Part g N Q (fun _ => False) x em) (full : ∀ p, HasTet g p → HasTet x p)
    (hQ : ∀ s, Q s → ∃ u v, s = sorted2 (u, v) ∧ HasEdge g u v)
    (hl : ∀ j t e j' t' e', x.tets.get j = some t → x.tets.get j' = some t' → Twin t e t' e' →
      t'.flags.locked (face e') = t.flags.locked (face e)) : Consistent x := by
  have sub : ∀ p, HasTet x p → HasTet g p := by
    rintro p ⟨w, hw⟩
    obtain ⟨t, h1, rfl⟩ := Mesh.tet4_iff.1 hw
    exact HasTet.same (h.sub _ t h1) (codes_same t 0 _)
  have nbr : ∀ k t e, x.tets.get k = some t → ∃ j t' e', x.tets.get j = some t' ∧ Twin t e t' e' := by
    intro k t e ht
    obtain ⟨w, hw⟩ := sub _ (hasTet_at ht e)
    obtain ⟨o, -, ho⟩ := hg.toT.adj_tri (tet4_parts hw).2.2.2
    obtain ⟨d, hd⟩ := tri_tet4 ho
    obtain ⟨w', hw'⟩ := full _ ⟨o, hd⟩
    obtain ⟨t', h1, h2⟩ := Mesh.tet4_iff.1 hw'
    refine ⟨w'.tet, t', w'.edge, h1, ?_⟩
    simp only [Tet.tet, Twin, Tet.tri, Prod.mk.injEq] at h2 ⊢
    exact ⟨h2.1, h2.2.1, h2.2.2.1⟩
  have hadj : AdjT x.tets.get := by
    intro k t e ht
    obtain ⟨j, t', e', h1, h2⟩ := nbr k t e ht
    rw [h.link k t e j t' e' ht h1 h2]
    exact ⟨t', h1, h.link j t' e' k t e h1 ht h2.symm, h2⟩
  refine ConsistentT.toSpec ⟨⟨h.wfv, h.eok.wf, h.wft⟩, hadj, h.dist hg, ?_, ?_, h.eptr, h.eok.unique, ?_, h.uniq,
    oneRing_of hg hadj h.uniq fun p => ⟨sub p, full p⟩, ?_, fun _ => h.tsound, fun _ => h.tc⟩
  · intro v b hb
    exact (h.vref v b hb).resolve_left id
  · intro k t i ht
    rcases h.vlive k t i ht with h1 | ⟨b, h1, h2⟩
    · exact .inl h1
    · obtain ⟨t', h3, h4⟩ := ((h.vref _ b h1).resolve_left id).resolve_left (h2.resolve_left id)
      exact .inr ⟨b, t', h1, h3, h4⟩
  · intro e ue he
    obtain ⟨u, v, h1, h2⟩ := hQ _ (h.eok.sub e ue he)
    obtain ⟨c, d, h3⟩ := hg.toT.hasEdge_tet.1 h2
    obtain ⟨w, hw⟩ := full _ h3
    obtain ⟨t, h4, h5⟩ := Mesh.tet4_iff.1 hw
    obtain ⟨ue', h6, h7⟩ := h.eptr _ t w.edge h4
    simp only [Tet.tet, Prod.mk.injEq] at h5
    rw [Tet.edge, h5.1, h5.2.1, ← h1] at h7
    exact ⟨w.tet, t, w.edge, h4, h.eok.unique _ _ _ _ h6 he h7⟩
  · intro k t t' e h1 h2
    obtain ⟨j, u, e', h3, h4⟩ := nbr k t e h1
    have := h.link k t e j u e' h1 h3 h4
    rw [this] at h2 ⊢
    obtain rfl := Option.some.inj (h2.symm.trans h3)
    exact hl k t e j t' e' h1 h3 h4


/-! ### Adding several tets -/

/-- The pair is an edge of the mesh and locked. -/
def KeyLocked (x : Mesh P V T) (s : VId × VId) : Prop := ∃ e ue, x.edges.get e = some ue ∧ ue.vertices = s ∧ ue.locked = true

/-- The mesh has grown by the tets `news`; the triangles `lt` and the edges `le` have been locked. -/
structure Grow (x x' : Mesh P V T) (news : List V4) (lt : V3 → Prop) (le : VId × VId → Prop) (n : Nat) : Prop where
  has : ∀ p, HasTet x' p ↔ HasTet x p ∨ ∃ q ∈ news, SameTet q p
  locked : ∀ s, LockedTri x' s ↔ LockedTri x s ∨ lt s
  elocked : ∀ s, KeyLocked x' s ↔ KeyLocked x s ∨ le s
  keep : ∀ j t, x.tets.get j = some t → ∃ t', x'.tets.get j = some t' ∧ t'.vertices = t.vertices ∧ t'.value = t.value
  vat : ∀ v, (x'.vertices.get v).map unref = (x.vertices.get v).map unref
  cen : x'.center = x.center
  size : x'.tets.size = x.tets.size + n
  esize : x'.edges.size ≤ x.edges.size + 6 * n

theorem Grow.trans {x x' x'' : Mesh P V T} {news news' lt lt' le le' n n'} (h : Grow x x' news lt le n) (h' : Grow x' x'' news' lt' le' n') :
    Grow x x'' (news ++ news') (fun s => lt s ∨ lt' s) (fun s => le s ∨ le' s) (n + n') := by
  refine ⟨?_, ?_, ?_, ?_, fun v => (h'.vat v).trans (h.vat v), h'.cen.trans h.cen, ?_, ?_⟩
  · intro p
    rw [h'.has, h.has, or_assoc]
    simp only [List.mem_append, or_and_right, exists_or]
  · intro s
    rw [h'.locked, h.locked, or_assoc]
  · intro s
    rw [h'.elocked, h.elocked, or_assoc]
  · intro j t ht
    obtain ⟨t', h1, h2, h3⟩ := h.keep j t ht
    obtain ⟨t'', h4, h5, h6⟩ := h'.keep j t' h1
    exact ⟨t'', h4, h5.trans h2, h6.trans h3⟩
  · have := h.size
    have := h'.size
    omega
  · have := h.esize
    have := h'.esize
    omega

theorem Grow.congr {x x' : Mesh P V T} {news news' lt lt' le le' n n'} (h : Grow x x' news lt le n) (h1 : news = news')
    (h2 : ∀ s, lt s ↔ lt' s) (h3 : ∀ s, le s ↔ le' s) (h4 : n = n') : Grow x x' news' lt' le' n' := by
  subst h1 h4
  obtain rfl : lt = lt' := funext fun s => propext (h2 s)
  obtain rfl : le = le' := funext fun s => propext (h3 s)
  exact h

theorem Grow.live {x x' : Mesh P V T} {news lt le n} (h : Grow x x' news lt le n) {v} (hv : ∃ b, x.vertices.get v = some b) :
    ∃ b, x'.vertices.get v = some b := by
  obtain ⟨b, hb⟩ := hv
  have := h.vat v
  rw [hb] at this
  obtain ⟨b', h1, -⟩ := Option.map_eq_some_iff.1 this
  exact ⟨b', h1⟩

variable {pend : VId → Prop}

/-- What is needed to add a tet. -/
def Fits (g : Mesh P V T) (N Q : VId × VId → Prop) (x : Mesh P V T) (q : V4) : Prop :=
  HasTet g q ∧ ¬ HasTet x q ∧ (∀ u ∈ list4 q, ∀ v ∈ list4 q, u ≠ v → N (sorted2 (u, v)) ∧ Q (sorted2 (u, v))) ∧
    ∀ v ∈ list4 q, ∃ b, x.vertices.get v = some b

theorem Fits.mono {g x x' : Mesh P V T} {news lt le n} (h : Grow x x' news lt le n) {q : V4} (hq : Fits g N Q x q)
    (hn : ∀ p ∈ news, ¬ SameTet p q) : Fits g N Q x' q := by
  obtain ⟨h1, h2, h3, h4⟩ := hq
  refine ⟨h1, ?_, h3, fun v hv => h.live (h4 v hv)⟩
  rw [h.has]
  rintro (h5 | ⟨p, h5, h6⟩)
  · exact h2 h5
  · exact hn p h5 h6

theorem lockedTri_of_bare {x x' : Mesh P V T} {j : TId} (h : (x'.tets.get j).map bare = (x.tets.get j).map bare) {e : Code} {s : V3} :
    (∃ t, x'.tets.get j = some t ∧ t.tri e = s ∧ t.flags.locked (face e) = true) ↔
      ∃ t, x.tets.get j = some t ∧ t.tri e = s ∧ t.flags.locked (face e) = true := by
  have key : ∀ {y y' : Mesh P V T}, (y'.tets.get j).map bare = (y.tets.get j).map bare →
      (∃ t, y'.tets.get j = some t ∧ t.tri e = s ∧ t.flags.locked (face e) = true) →
      ∃ t, y.tets.get j = some t ∧ t.tri e = s ∧ t.flags.locked (face e) = true := by
    rintro y y' h ⟨t, h1, h2, h3⟩
    rw [h1] at h
    obtain ⟨u, h4, h5⟩ := Option.map_eq_some_iff.1 h.symm
    refine ⟨u, h4, by rw [← h2]; exact (core_tri h5.symm e), ?_⟩
    have : u.flags = t.flags := congrArg (fun z => z.flags) h5
    rw [this]
    exact h3
  exact ⟨key h, key h.symm⟩

theorem locked_at {x : Mesh P V T} {s : V3} : LockedTri x s ↔ ∃ j e t, x.tets.get j = some t ∧ t.tri e = s ∧ t.flags.locked (face e) = true := by
  constructor
  · rintro ⟨w, h1, h2⟩
    obtain ⟨t, h3, h4⟩ := Mesh.tri_iff.1 h1
    obtain ⟨t', h5, h6⟩ := Mesh.triLocked_iff.1 h2
    obtain rfl := Option.some.inj (h3.symm.trans h5)
    exact ⟨w.tet, w.edge, t, h3, h4, h6⟩
  · rintro ⟨j, e, t, h1, h2, h3⟩
    exact ⟨⟨j, e⟩, Mesh.tri_iff.2 ⟨t, h1, h2⟩, Mesh.triLocked_iff.2 ⟨t, h1, h3⟩⟩

/-- `insert_tet` -/
theorem Part.grow {g x : Mesh P V T} (hg : Consistent g) (h : Part g N Q pend x em) (fuel : Nat) (q : V4) (hq : Fits g N Q x q)
    (room : x.tets.size < idMax) (eroom : x.edges.size + 6 ≤ idMax) :
    ∃ x' em' k, Mesh.insertTetAt fuel (x, em) q = some ((x', em'), ⟨k, 3⟩) ∧ x.tets.get k = none ∧ x'.tet4 ⟨k, 3⟩ = some q ∧
      Part g N Q (fun v => pend v ∧ v ∉ list4 q) x' em' ∧ Grow x x' [q] (fun _ => False) (fun _ => False) 1 ∧
      (∀ s i, em s = some i → em' s = some i) ∧ (∀ u ∈ list4 q, ∀ v ∈ list4 q, u ≠ v → ∃ i, em' (sorted2 (u, v)) = some i) ∧
      (∀ t, x'.tets.get k = some t → ∀ f, t.flags.locked f = false) := by
  obtain ⟨x', em', k, t, h1, h2, h3, h4, h5, h6, h7, h8, h9, h10, h11, h12, h13, h14, h15⟩ :=
    h.insert hg fuel q hq.1 hq.2.1 hq.2.2.1 hq.2.2.2 room eroom
  have h4' : t.tet 3 = q := by
    simp only [Tet.tet, Tet.first, Tet.second, Tet.third, Tet.fourth, h5]
    rfl
  refine ⟨x', em', k, h1, h4, Mesh.tet4_iff.2 ⟨t, h3, h4'⟩, h2, ⟨?_, ?_, ?_, ?_, h8, h9, h10, by omega⟩, h12, h13, ?_⟩
  · intro p
    have old : ∀ j, j ≠ k → ∀ {y y' : Mesh P V T}, (∀ j, j ≠ k → (y'.tets.get j).map bare = (y.tets.get j).map bare) → ∀ {e},
        y.tet4 ⟨j, e⟩ = some p → y'.tet4 ⟨j, e⟩ = some p := by
      intro j hj y y' hb e he
      obtain ⟨u, g1, g2⟩ := Mesh.tet4_iff.1 he
      have := hb j hj
      simp only at g1
      rw [g1] at this
      obtain ⟨u', g3, g4⟩ := Option.map_eq_some_iff.1 this
      refine Mesh.tet4_iff.2 ⟨u', g3, ?_⟩
      have hvv : u'.vertices = u.vertices := congrArg (fun z => z.vertices) g4
      rw [← g2]
      simp only [Tet.tet, Tet.first, Tet.second, Tet.third, Tet.fourth, hvv]
    constructor
    · rintro ⟨⟨j, e⟩, hw⟩
      by_cases hj : j = k
      · subst hj
        right
        obtain ⟨u, g1, g2⟩ := Mesh.tet4_iff.1 hw
        obtain rfl := Option.some.inj (g1.symm.trans h3)
        exact ⟨q, by simp, by rw [← h4', ← g2]; exact codes_same _ _ _⟩
      · exact .inl ⟨⟨j, e⟩, old j hj (fun j hj => (h7 j hj).symm) hw⟩
    · rintro (⟨⟨j, e⟩, hw⟩ | ⟨p', hp, hs⟩)
      · refine ⟨⟨j, e⟩, old j ?_ h7 hw⟩
        rintro rfl
        obtain ⟨u, g1, -⟩ := Mesh.tet4_iff.1 hw
        simp only at g1
        rw [h4] at g1
        cases g1
      · obtain rfl := List.mem_singleton.1 hp
        exact HasTet.same (h4' ▸ hasTet_at h3 3) hs
  · intro s
    simp only [locked_at, or_false]
    refine exists_congr fun j => exists_congr fun e => ?_
    by_cases hj : j = k
    · subst hj
      constructor
      · rintro ⟨u, g1, -, g3⟩
        obtain rfl := Option.some.inj (g1.symm.trans h3)
        rw [h6] at g3
        cases g3
      · rintro ⟨u, g1, -⟩
        rw [h4] at g1
        cases g1
    · exact lockedTri_of_bare (h7 j hj)
  · intro s
    simp only [or_false]
    constructor
    · rintro ⟨e, ue, g1, g2, g3⟩
      rcases h15 e ue g1 with g4 | ⟨-, g4, -⟩
      · exact ⟨e, ue, g4, g2, g3⟩
      · rw [g3] at g4
        cases g4
    · rintro ⟨e, ue, g1, g2, g3⟩
      exact ⟨e, ue, h14 e ue g1, g2, g3⟩
  · intro j u hu
    have hj : j ≠ k := by
      rintro rfl
      rw [h4] at hu
      cases hu
    have := h7 j hj
    rw [hu] at this
    obtain ⟨u', g3, g4⟩ := Option.map_eq_some_iff.1 this
    exact ⟨u', g3, congrArg (fun z => z.vertices) g4, congrArg (fun z => z.value) g4⟩
  · intro u hu f
    obtain rfl := Option.some.inj (hu.symm.trans h3)
    exact h6 f

/-- Locking a triangle of a tet changes no more than that. -/
theorem Part.lock {g x : Mesh P V T} (h : Part g N Q pend x em) {k : TId} {e : Code} {t} (ht : x.tets.get k = some t) :
    ∃ x', x.modTet k (·.setLocked (face e)) = some x' ∧ Part g N Q pend x' em ∧
      Grow x x' [] (fun s => Rotation (t.tri e) s) (fun _ => False) 0 := by
  let x' : Mesh P V T := { x with tets := x.tets.modify k (·.setLocked (face e)) }
  have get : ∀ j, x'.tets.get j = if j = k then some (t.setLocked (face e)) else x.tets.get j := by
    intro j
    simp only [x', IdMap.get_modify]
    split_ifs with hj
    · rw [hj, ht]; rfl
    · rfl
  have fwd : ∀ {j u}, x.tets.get j = some u → ∃ u', x'.tets.get j = some u' ∧ { u' with flags := u.flags } = u := by
    intro j u hu
    rw [get]
    split_ifs with hj
    · subst hj
      obtain rfl := Option.some.inj (hu.symm.trans ht)
      exact ⟨_, rfl, rfl⟩
    · exact ⟨u, hu, rfl⟩
  have bwd : ∀ {j u}, x'.tets.get j = some u → ∃ u', x.tets.get j = some u' ∧ { u' with flags := u.flags } = u := by
    intro j u hu
    rw [get] at hu
    split_ifs at hu with hj
    · subst hj
      obtain rfl := Option.some.inj hu
      exact ⟨_, ht, rfl⟩
    · exact ⟨u, hu, rfl⟩
  refine ⟨x', ?_, ⟨h.wfv, h.wft.modify _ _, h.track, h.eok, ?_, ?_, ?_, ?_, ?_, ?_, ?_, ?_⟩, ⟨?_, ?_, ?_, ?_, fun _ => rfl, rfl, ?_, ?_⟩⟩
  · simp [Mesh.modTet, ht, x']
  · intro j u hu
    obtain ⟨u', h1, h2⟩ := bwd hu
    rw [← h2]
    exact h.sub j u' h1
  · intro j u c j' u' c' h1 h2 h3
    obtain ⟨v, g1, g2⟩ := bwd h1
    obtain ⟨v', g3, g4⟩ := bwd h2
    rw [← g2, ← g4] at h3
    exact h.uniq j v c j' v' c' g1 g3 h3
  · intro j u c j' u' c' h1 h2 h3
    obtain ⟨v, g1, g2⟩ := bwd h1
    obtain ⟨v', g3, g4⟩ := bwd h2
    rw [← g2, ← g4] at h3
    rw [← g2]
    exact h.link j v c j' v' c' g1 g3 h3
  · intro s w hw
    obtain ⟨u, h1, h2⟩ := h.tsound s w hw
    obtain ⟨u', h3, h4⟩ := fwd h1
    refine ⟨u', h3, ?_⟩
    rw [← h2, ← h4]
    rfl
  · intro j u c hu
    obtain ⟨u', h1, h2⟩ := bwd hu
    rw [← h2]
    exact h.tc j u' c h1
  · intro j u c hu
    obtain ⟨u', h1, h2⟩ := bwd hu
    rw [← h2]
    exact h.eptr j u' c h1
  · intro v b hb
    rcases h.vref v b hb with h1 | h1 | ⟨u, h1, h2⟩
    · exact .inl h1
    · exact .inr (.inl h1)
    · obtain ⟨u', h3, h4⟩ := fwd h1
      exact .inr (.inr ⟨u', h3, by rw [← h2, ← h4]; rfl⟩)
  · intro j u i hu
    obtain ⟨u', h1, h2⟩ := bwd hu
    rw [← h2]
    exact h.vlive j u' i h1
  · intro p
    simp only [List.not_mem_nil, false_and, exists_false, or_false]
    constructor
    · rintro ⟨w, hw⟩
      obtain ⟨u, g1, g2⟩ := Mesh.tet4_iff.1 hw
      obtain ⟨u', g3, g4⟩ := bwd g1
      exact ⟨w, Mesh.tet4_iff.2 ⟨u', g3, by rw [← g2, ← g4]; rfl⟩⟩
    · rintro ⟨w, hw⟩
      obtain ⟨u, g1, g2⟩ := Mesh.tet4_iff.1 hw
      obtain ⟨u', g3, g4⟩ := fwd g1
      exact ⟨w, Mesh.tet4_iff.2 ⟨u', g3, by rw [← g2, ← g4]; rfl⟩⟩
  · intro s
    simp only [locked_at]
    constructor
    · rintro ⟨j, c, u, h1, h2, h3⟩
      rw [get] at h1
      split_ifs at h1 with hj
      · obtain rfl := Option.some.inj h1
        simp only [Tet.setLocked, Function.update_apply] at h3
        split_ifs at h3 with hf
        · right
          rw [← h2]
          rcases (face_eq_iff e c).1 hf.symm with h4 | h4 | h4
          · exact .inl (by rw [h4]; rfl)
          · exact .inr (.inl (by rw [h4]; exact (t.tri_nfe e)))
          · exact .inr (.inr (by rw [h4]; exact (t.tri_pfe e)))
        · exact .inl ⟨k, c, t, ht, h2, h3⟩
      · exact .inl ⟨j, c, u, h1, h2, h3⟩
    · rintro (⟨j, c, u, h1, h2, h3⟩ | h)
      · by_cases hj : j = k
        · refine ⟨j, c, _, by rw [get, if_pos hj], ?_, ?_⟩
          · subst hj
            obtain rfl := Option.some.inj (h1.symm.trans ht)
            exact h2
          · subst hj
            obtain rfl := Option.some.inj (h1.symm.trans ht)
            simp only [Tet.setLocked, Function.update_apply]
            split_ifs
            · rfl
            · exact h3
        · exact ⟨j, c, u, by rw [get, if_neg hj]; exact h1, h2, h3⟩
      · have : ∃ c, face c = face e ∧ t.tri c = s := by
          rcases h with h | h | h
          · exact ⟨e, rfl, h.symm⟩
          · exact ⟨nfe e, face_nfe e, by rw [h]; exact t.tri_nfe e⟩
          · exact ⟨pfe e, face_pfe e, by rw [h]; exact t.tri_pfe e⟩
        obtain ⟨c, h1, h2⟩ := this
        refine ⟨k, c, t.setLocked (face e), by rw [get, if_pos rfl], h2, ?_⟩
        simp [Tet.setLocked, h1]
  · intro s
    simp only [or_false]
    rfl
  · intro j u hu
    obtain ⟨u', h3, h4⟩ := fwd hu
    exact ⟨u', h3, congrArg (fun z => z.vertices) h4, congrArg (fun z => z.value) h4⟩
  · simp only [x', IdMap.size_modify]
    rfl
  · exact le_rfl

/-- `insert_tet` and locking the triangle -/
theorem Part.cone {g x : Mesh P V T} (hg : Consistent g) (h : Part g N Q pend x em) (fuel : Nat) (a b c d : VId)
    (hq : Fits g N Q x (a, b, c, d)) (room : x.tets.size < idMax) (eroom : x.edges.size + 6 ≤ idMax) :
    ∃ x' em', Mesh.capCone fuel (x, em) (a, b, c, d) = some (x', em') ∧ Part g N Q (fun v => pend v ∧ v ∉ list4 (a, b, c, d)) x' em' ∧
      Grow x x' [(a, b, c, d)] (fun s => Rotation (a, b, c) s) (fun _ => False) 1 ∧
      (∀ s i, em s = some i → em' s = some i) ∧
      (∀ u ∈ list4 (a, b, c, d), ∀ v ∈ list4 (a, b, c, d), u ≠ v → ∃ i, em' (sorted2 (u, v)) = some i) := by
  obtain ⟨x1, em1, k, h1, -, h2, h3, h4, h5, h6, -⟩ := h.grow hg fuel _ hq room eroom
  obtain ⟨t, h7, h8⟩ := Mesh.tet4_iff.1 h2
  obtain ⟨x2, h9, h10, h11⟩ := h3.lock (e := 3) h7
  have h12 : t.tri 3 = (a, b, c) := by
    simp only [Tet.tet, Prod.mk.injEq] at h8
    simp only [Tet.tri, h8.1, h8.2.1, h8.2.2.1]
  refine ⟨x2, em1, ?_, h10, (h4.trans h11).congr rfl (fun s => by rw [h12, false_or]) (fun s => by simp) rfl, h5, h6⟩
  simp only [Mesh.capCone, h1, Option.bind_eq_bind, Option.bind_some]
  rw [h9]
  rfl

/-- Locking an edge changes no more than that. -/
theorem Part.lockEdge {g x : Mesh P V T} (h : Part g N Q pend x em) {u v : VId} {i : EId} (hN : N (sorted2 (u, v)))
    (hi : em (sorted2 (u, v)) = some i) :
    ∃ x', Mesh.capLock (x, em) (u, v) = some (x', em) ∧ Part g N Q pend x' em ∧
      Grow x x' [] (fun _ => False) (fun s => s = sorted2 (u, v)) 0 := by
  obtain ⟨ue, hu, huv⟩ := h.eok.ok _ _ hN hi
  let x' : Mesh P V T := { x with edges := x.edges.modify i fun ue => { ue with locked := true } }
  have get : ∀ j, x'.edges.get j = if j = i then some { ue with locked := true } else x.edges.get j := by
    intro j
    simp only [x', IdMap.get_modify]
    split_ifs with hj
    · rw [hj, hu]; rfl
    · rfl
  have fwd : ∀ {j u}, x.edges.get j = some u → ∃ u', x'.edges.get j = some u' ∧ u'.vertices = u.vertices := by
    intro j u' hu'
    rw [get]
    split_ifs with hj
    · subst hj
      obtain rfl := Option.some.inj (hu'.symm.trans hu)
      exact ⟨_, rfl, rfl⟩
    · exact ⟨u', hu', rfl⟩
  have bwd : ∀ {j u}, x'.edges.get j = some u → ∃ u', x.edges.get j = some u' ∧ u'.vertices = u.vertices := by
    intro j u' hu'
    rw [get] at hu'
    split_ifs at hu' with hj
    · subst hj
      obtain rfl := Option.some.inj hu'
      exact ⟨_, hu, rfl⟩
    · exact ⟨u', hu', rfl⟩
  refine ⟨x', ?_, ⟨h.wfv, h.wft, h.track, ⟨h.eok.wf.modify _ _, ?_, ?_, ?_, ?_⟩, h.sub, h.uniq, h.link, h.tsound, h.tc, ?_, h.vref, h.vlive⟩,
    ⟨?_, ?_, ?_, ?_, fun _ => rfl, rfl, rfl, ?_⟩⟩
  · simp only [Mesh.capLock, hi, Option.bind_eq_bind, Option.bind_some, Mesh.modEdge, hu]
    rfl
  · intro e e' u1 u2 h1 h2 h3
    obtain ⟨v1, g1, g2⟩ := bwd h1
    obtain ⟨v2, g3, g4⟩ := bwd h2
    exact h.eok.unique e e' v1 v2 g1 g3 (by rw [g2, g4, h3])
  · intro e u1 h1
    obtain ⟨v1, g1, g2⟩ := bwd h1
    rw [← g2]
    exact h.eok.sub e v1 g1
  · intro s j hNs hj
    obtain ⟨v1, g1, g2⟩ := h.eok.ok s j hNs hj
    obtain ⟨v2, g3, g4⟩ := fwd g1
    exact ⟨v2, g3, g4.trans g2⟩
  · intro e u1 h1 h2
    obtain ⟨v1, g1, g2⟩ := bwd h1
    rw [← g2] at h2 ⊢
    exact h.eok.all e v1 g1 h2
  · intro j t c ht
    obtain ⟨v1, g1, g2⟩ := h.eptr j t c ht
    obtain ⟨v2, g3, g4⟩ := fwd g1
    exact ⟨v2, g3, g4.trans g2⟩
  · intro p
    simp only [List.not_mem_nil, false_and, exists_false, or_false]
    rfl
  · intro s
    simp only [or_false]
    rfl
  · intro s
    constructor
    · rintro ⟨e, u1, h1, h2, h3⟩
      rw [get] at h1
      split_ifs at h1 with hj
      · obtain rfl := Option.some.inj h1
        exact .inr (h2.symm.trans huv)
      · exact .inl ⟨e, u1, h1, h2, h3⟩
    · rintro (⟨e, u1, h1, h2, h3⟩ | rfl)
      · by_cases hj : e = i
        · refine ⟨e, _, by rw [get, if_pos hj], ?_, rfl⟩
          subst hj
          obtain rfl := Option.some.inj (h1.symm.trans hu)
          exact h2
        · exact ⟨e, u1, by rw [get, if_neg hj]; exact h1, h2, h3⟩
      · exact ⟨i, { ue with locked := true }, by rw [get, if_pos rfl], huv, rfl⟩
  · exact fun j t ht => ⟨t, ht, rfl, rfl⟩
  · simp only [x', IdMap.size_modify]
    exact le_rfl

/-- The two tets at one triangle are added. -/
theorem Part.put {g x : Mesh P V T} (hg : Consistent g) (h : Part g N Q pend x em) (fuel : Nat) (vt vb : VId) (r : V3)
    (h1 : Fits g N Q x (r.2.1, r.1, r.2.2, vt)) (h2 : Fits g N Q x (r.1, r.2.1, r.2.2, vb))
    (hne : ¬ SameTet (r.2.1, r.1, r.2.2, vt) (r.1, r.2.1, r.2.2, vb))
    (room : x.tets.size + 2 ≤ idMax) (eroom : x.edges.size + 12 ≤ idMax) :
    ∃ x' em', Mesh.capPut fuel vt vb (x, em) r = some (x', em') ∧
      Part g N Q (fun v => pend v ∧ ∀ p ∈ coneTets vt vb [r], v ∉ list4 p) x' em' ∧
      Grow x x' (coneTets vt vb [r]) (Either r) (fun s => s ∈ (triSides [r]).map sorted2) 2 := by
  obtain ⟨a, b, c⟩ := r
  obtain ⟨x1, em1, e1, p1, g1, m1, d1⟩ := h.cone hg fuel b a c vt h1 (by omega) (by omega)
  have s1 := g1.size
  have s1' := g1.esize
  have h2' : Fits g N Q x1 (a, b, c, vb) := Fits.mono g1 h2 (by simpa using hne)
  obtain ⟨x2, em2, e2, p2, g2, m2, d2⟩ := p1.cone hg fuel a b c vb h2' (by omega) (by omega)
  obtain ⟨w, hw⟩ := h2.1
  have hnd := hg.distinct _ _ _ _ _ hw
  simp only [List.nodup_cons, List.mem_cons, List.not_mem_nil, or_false, not_or] at hnd
  obtain ⟨⟨nab, nac, -⟩, ⟨nbc, -⟩, -⟩ := hnd
  obtain ⟨i1, q1⟩ := d2 a (by simp [list4]) b (by simp [list4]) nab
  obtain ⟨i2, q2⟩ := d2 b (by simp [list4]) c (by simp [list4]) nbc
  obtain ⟨i3, q3⟩ := d2 c (by simp [list4]) a (by simp [list4]) (fun h => nac h.symm)
  obtain ⟨x3, e3, p3, g3⟩ := p2.lockEdge (h2.2.2.1 a (by simp [list4]) b (by simp [list4]) nab).1 q1
  obtain ⟨x4, e4, p4, g4⟩ := p3.lockEdge (h2.2.2.1 b (by simp [list4]) c (by simp [list4]) nbc).1 q2
  obtain ⟨x5, e5, p5, g5⟩ := p4.lockEdge (h2.2.2.1 c (by simp [list4]) a (by simp [list4]) (fun h => nac h.symm)).1 q3
  refine ⟨x5, em2, ?_, ?_, ((((g1.trans g2).trans g3).trans g4).trans g5).congr rfl ?_ ?_ rfl⟩
  · simp only [Mesh.capPut, e1, e2, Option.bind_eq_bind, Option.bind_some, List.foldlM_cons, List.foldlM_nil, e3, e4, e5]
    rfl
  · have : (fun v => (pend v ∧ v ∉ list4 (b, a, c, vt)) ∧ v ∉ list4 (a, b, c, vb)) =
        fun v => pend v ∧ ∀ p ∈ coneTets vt vb [(a, b, c)], v ∉ list4 p := by
      funext v
      simp [coneTets, and_assoc]
    rw [← this]
    exact p5
  · intro s
    simp only [or_false]
    rfl
  · intro s
    simp only [triSides, List.flatMap_cons, List.flatMap_nil, List.append_nil, List.map_cons, List.map_nil, List.mem_cons, List.not_mem_nil,
      or_false, false_or, or_assoc]

/-- All tets at the triangles are added. -/
theorem Part.puts {g : Mesh P V T} (hg : Consistent g) (fuel : Nat) (vt vb : VId) (tris : List V3) :
    ∀ {x : Mesh P V T} {em : Mesh.EdgeMap} {pend : VId → Prop}, Part g N Q pend x em → (∀ q ∈ coneTets vt vb tris, Fits g N Q x q) →
      (coneTets vt vb tris).Pairwise (fun p q => ¬ SameTet p q) →
      x.tets.size + 2 * tris.length ≤ idMax → x.edges.size + 12 * tris.length ≤ idMax →
      ∃ x' em', tris.foldlM (Mesh.capPut fuel vt vb) (x, em) = some (x', em') ∧
        Part g N Q (fun v => pend v ∧ ∀ p ∈ coneTets vt vb tris, v ∉ list4 p) x' em' ∧
        Grow x x' (coneTets vt vb tris) (fun s => ∃ r ∈ tris, Either r s) (fun s => s ∈ (triSides tris).map sorted2) (2 * tris.length) := by
  induction tris with
  | nil =>
    intro x em pend h _ _ _ _
    refine ⟨x, em, rfl, by simpa [coneTets] using h, ⟨?_, ?_, ?_, fun j t ht => ⟨t, ht, rfl, rfl⟩, fun _ => rfl, rfl, rfl, le_rfl⟩⟩ <;>
      simp [coneTets, triSides]
  | cons r tris ih =>
    intro x em pend h hf hp room eroom
    have hc : coneTets vt vb (r :: tris) = coneTets vt vb [r] ++ coneTets vt vb tris := by simp [coneTets]
    rw [hc] at hf hp ⊢
    obtain ⟨hp1, hp2, hp3⟩ := List.pairwise_append.1 hp
    simp only [List.length_cons] at room eroom
    obtain ⟨x1, em1, e1, p1, g1⟩ := h.put hg fuel vt vb r (hf _ (by simp [coneTets])) (hf _ (by simp [coneTets]))
      (by simpa [coneTets] using hp1) (by omega) (by omega)
    have s1 := g1.size
    have s1' := g1.esize
    obtain ⟨x2, em2, e2, p2, g2⟩ := ih p1 (fun q hq => Fits.mono g1 (hf q (by simp [hq])) fun p hpm => hp3 p hpm q hq) hp2 (by omega) (by omega)
    refine ⟨x2, em2, ?_, ?_, (g1.trans g2).congr rfl ?_ ?_ (by simp; omega)⟩
    · simp only [List.foldlM_cons, e1, Option.bind_eq_bind, Option.bind_some, e2]
    · have : (fun v => (pend v ∧ ∀ p ∈ coneTets vt vb [r], v ∉ list4 p) ∧ ∀ p ∈ coneTets vt vb tris, v ∉ list4 p) =
          fun v => pend v ∧ ∀ p ∈ coneTets vt vb [r] ++ coneTets vt vb tris, v ∉ list4 p := by
        funext v
        simp only [List.mem_append, or_imp, forall_and, and_assoc]
      rw [← this]
      exact p2
    · intro s
      simp
    · intro s
      rw [show triSides (r :: tris) = triSides [r] ++ triSides tris by simp [triSides], List.map_append, List.mem_append]

end Tet
