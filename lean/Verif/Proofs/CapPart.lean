import Verif.Proofs.CapDrop
import Verif.Proofs.Unlocked

/-!
# The hole left by a fan
-/

namespace Tet
open Spec
variable {P V T : Type}

/-- The tets at the edges `F` are a fan in the mesh. -/
structure IsFan (m : Mesh P V T) (vt vb : VId) (F : List (VId × VId)) : Prop where
  nd : F.Nodup
  rev : ∀ e ∈ F, (e.2, e.1) ∉ F
  off : ∀ e ∈ F, e.1 ≠ vt ∧ e.1 ≠ vb ∧ e.2 ≠ vt ∧ e.2 ≠ vb ∧ e.1 ≠ e.2
  has : ∀ e ∈ F, HasTet m (fanTet vt vb e)
  vv : vt ≠ vb

variable {m g x : Mesh P V T} {vt vb : VId} {F : List (VId × VId)} {em : Mesh.EdgeMap} {gone : Prop}

theorem pair_eq {a b c d : VId} (h1 : a = c ∨ a = d) (h2 : b = c ∨ b = d) (hab : a ≠ b) : (a = c ∧ b = d) ∨ (a = d ∧ b = c) := by
  rcases h1 with rfl | rfl <;> rcases h2 with rfl | rfl
  · exact absurd rfl hab
  · exact .inl ⟨rfl, rfl⟩
  · exact .inr ⟨rfl, rfl⟩
  · exact absurd rfl hab

/-- Two tets of the fan with the same vertices are at the same edge. -/
theorem IsFan.edge_eq (h : IsFan m vt vb F) {e e' : VId × VId} (he : e ∈ F) (he' : e' ∈ F)
    (h1 : e.1 ∈ list4 (fanTet vt vb e')) (h2 : e.2 ∈ list4 (fanTet vt vb e')) : e = e' := by
  obtain ⟨n1, n2, n3, n4, n5⟩ := h.off e he
  simp only [list4, fanTet, List.mem_cons, List.not_mem_nil, or_false, n1, n2, n3, n4, false_or] at h1 h2
  rcases pair_eq h1.symm h2.symm n5 with ⟨h3, h4⟩ | ⟨h3, h4⟩
  · exact Prod.ext h3 h4
  · exact absurd he (by have := h.rev e' he'; rwa [← h3, ← h4] at this)

theorem not_same_swap {a b c d : VId} (h : [a, b, c, d].Nodup) : ¬ SameTet (a, b, c, d) (b, a, c, d) := by
  intro hs
  rw [← mem_twelve] at hs
  simp only [List.nodup_cons, List.mem_cons, List.not_mem_nil, or_false, not_or] at h
  obtain ⟨⟨h1, h2, h3⟩, ⟨h4, h5⟩, h6, -⟩ := h
  simp [twelve, h1, h2, h3, h4, h5, h6, Ne.symm h1, Ne.symm h2, Ne.symm h3, Ne.symm h4, Ne.symm h5, Ne.symm h6] at hs

theorem IsFan.top (hm : Consistent m) (h : IsFan m vt vb F) {e e' : VId × VId} (he : e ∈ F) (he' : e' ∈ F) (o : VId) :
    ¬ SameTet (fanTet vt vb e') (vt, e.2, e.1, o) := by
  intro hs
  obtain ⟨n1, n2, n3, n4, n5⟩ := h.off e he
  obtain rfl : e = e' := h.edge_eq he he' ((SameTet.mem hs _).2 (by simp [list4])) ((SameTet.mem hs _).2 (by simp [list4]))
  have : vb ∈ list4 (vt, e.2, e.1, o) := (SameTet.mem hs _).1 (by simp [list4, fanTet])
  simp only [list4, List.mem_cons, List.not_mem_nil, or_false, h.vv.symm, n4.symm, n2.symm, false_or] at this
  subst this
  obtain ⟨w, hw⟩ := h.has e he
  exact not_same_swap (hm.distinct _ _ _ _ _ hw) hs

theorem IsFan.bot (hm : Consistent m) (h : IsFan m vt vb F) {e e' : VId × VId} (he : e ∈ F) (he' : e' ∈ F) (o : VId) :
    ¬ SameTet (fanTet vt vb e') (e.1, e.2, vb, o) := by
  intro hs
  obtain ⟨n1, n2, n3, n4, n5⟩ := h.off e he
  obtain rfl : e = e' := h.edge_eq he he' ((SameTet.mem hs _).2 (by simp [list4])) ((SameTet.mem hs _).2 (by simp [list4]))
  have : vt ∈ list4 (e.1, e.2, vb, o) := (SameTet.mem hs _).1 (by simp [list4, fanTet])
  simp only [list4, List.mem_cons, List.not_mem_nil, or_false, h.vv, n1.symm, n3.symm, false_or] at this
  subst this
  obtain ⟨w, hw⟩ := HasTet.same (h.has e he) (q := (e.2, e.1, vb, vt)) (mem_twelve.1 (by simp [twelve, fanTet]))
  exact not_same_swap (hm.distinct _ _ _ _ _ hw) (SameTet.trans' (mem_twelve.1 (by simp [twelve, fanTet])) hs)

/-- Most of the fan is taken away. -/
theorem IsFan.drops (hm : Consistent m) (htr : m.trackTriMap = true) (h : IsFan m vt vb F) (fuel : Nat) (spine : Option VId) (es : List (VId × VId)) :
    ∀ {R : List (VId × VId)} {x : Mesh P V T} {em : Mesh.EdgeMap}, Drop m vt vb R False x em → (∀ e ∈ es, e ∈ F ∧ some e.2 ≠ spine) →
      (∀ e ∈ R, e ∈ F) → (es ++ R).Nodup →
      ∃ x' em', es.foldlM (Mesh.capDrop fuel vt spine) (x, em) = some (x', em') ∧ Drop m vt vb (es.reverse ++ R) False x' em' := by
  induction es with
  | nil => exact fun {R x em} hD _ _ _ => ⟨x, em, rfl, hD⟩
  | cons e es ih =>
    intro R x em hD h1 h2 h3
    rw [List.forall_mem_cons] at h1
    have h4 : e ∉ R := fun h => by simp [h] at h3
    obtain ⟨x1, em1, e1, D1⟩ := hD.step hm htr fuel spine e (h.has e h1.1.1)
      (fun e' he' hs => h4 (by
        have := h.edge_eq (h2 e' he') h1.1.1 ((SameTet.mem hs _).1 (by simp [list4, fanTet])) ((SameTet.mem hs _).1 (by simp [list4, fanTet]))
        rwa [← this]))
      (fun o _ e' he' => h.top hm h1.1.1 ((List.mem_cons.1 he').elim (fun h => h ▸ h1.1.1) (h2 e')) o)
    rw [show (some e.2 = spine) = False from eq_false h1.1.2] at D1
    obtain ⟨x2, em2, e2, D2⟩ := ih D1 h1.2 (fun e' he' => (List.mem_cons.1 he').elim (fun h => h ▸ h1.1.1) (h2 e'))
      ((List.perm_middle.nodup_iff).2 (by simpa using h3))
    refine ⟨x2, em2, ?_, by simpa using D2⟩
    simp only [List.foldlM_cons, e1, Option.bind_eq_bind, Option.bind_some, e2]

theorem Drop.perm {R R' : List (VId × VId)} (h : R.Perm R') (D : Drop m vt vb R gone x em) : Drop m vt vb R' gone x em := by
  have hm : ∀ e, e ∈ R ↔ e ∈ R' := fun e => h.mem_iff
  obtain ⟨h1, h2, h3, h4, h5, h6, h7, h8, h9, h10, h11, h12, h13, h14⟩ := D
  simp only [hm] at h4 h5 h8 h12
  rw [h.length_eq] at h13
  exact ⟨h1, h2, h3, h4, h5, h6, h7, h8, h9, h10, h11, h12, h13, h14⟩

/-- All tets at an edge are in the fan if it is closed. -/
theorem IsFan.closed (hm : Consistent m) (h : IsFan m vt vb F) (next : ∀ e ∈ F, ∃ e' ∈ F, e'.1 = e.2) (prev : ∀ e ∈ F, ∃ e' ∈ F, e'.2 = e.1)
    (hne : F ≠ []) {p q : VId} (hpq : HasTet m (vt, vb, p, q)) : ∃ e ∈ F, SameTet (fanTet vt vb e) (vt, vb, p, q) := by
  have hT := hm.toT
  have turned : ∀ e, SameTet (fanTet vt vb e) (vt, vb, e.1, e.2) := fun e => mem_twelve.1 (by simp [twelve, fanTet])
  have uniq : ∀ {k t c a b d d'}, m.tets.get k = some t → t.tri c = (a, b, d) → HasTet m (a, b, d, d') → t.tet c = (a, b, d, d') := by
    rintro k t c a b d d' h1 h2 ⟨w, hw⟩
    obtain ⟨u, h3, h4⟩ := Mesh.tet4_iff.1 hw
    have h5 : u.tri w.edge = (a, b, d) := by
      simp only [Tet.tet, Prod.mk.injEq] at h4
      simp only [Tet.tri, h4.1, h4.2.1, h4.2.2.1]
    obtain ⟨h6, h7⟩ := hT.tunique _ t c _ u w.edge h1 h3 (h5.trans h2.symm)
    rw [h6, h1] at h3
    obtain rfl := Option.some.inj h3
    rw [← h7]
    exact h4
  obtain ⟨e0, he0⟩ := List.exists_mem_of_ne_nil F hne
  obtain ⟨w0, hw0⟩ := HasTet.same (h.has e0 he0) (turned e0)
  obtain ⟨w, hw⟩ := hpq
  obtain ⟨t0, g1, g2⟩ := Mesh.tet4_iff.1 hw0
  obtain ⟨t, g3, g4⟩ := Mesh.tet4_iff.1 hw
  have hr : RingT m.tets.get w0 w := hT.ring _ t0 w0.edge _ t w.edge g1 g3 (by
    simp only [Tet.tet, Prod.mk.injEq] at g2 g4
    simp only [Tet.edge, g2.1, g2.2.1, g4.1, g4.2.1])
  have key : ∀ {a b}, RingT m.tets.get a b → (∃ e ∈ F, ∃ t, m.tets.get a.tet = some t ∧ t.tet a.edge = (vt, vb, e.1, e.2)) →
      ∃ e ∈ F, ∃ t, m.tets.get b.tet = some t ∧ t.tet b.edge = (vt, vb, e.1, e.2) := by
    intro a b hab
    induction hab with
    | refl => exact fun h => h
    | @step b u _ hu ih =>
      intro ha
      obtain ⟨e, he, u', h1, h2⟩ := ih ha
      obtain rfl := Option.some.inj (h1.symm.trans hu)
      obtain ⟨e', he', hee⟩ := next e he
      obtain ⟨s, h3, -, h4⟩ := hT.adj _ u' (twin b.edge) hu
      have h5 := tri_twin u' b.edge
      simp only [Tet.tet, Tet.tri, Prod.mk.injEq] at h2 h5
      refine ⟨e', he', s, h3, uniq h3 ?_ (HasTet.same (h.has e' he') (turned e'))⟩
      rw [h4, h5.1, h5.2.1, h5.2.2, h2.1, h2.2.1, h2.2.2.2, hee]
    | @back c u _ hu ih =>
      intro ha
      obtain ⟨e, he, s, h1, h2⟩ := ih ha
      obtain ⟨e', he', hee⟩ := prev e he
      obtain ⟨s', h3, -, h4⟩ := hT.adj _ u (twin c.edge) hu
      obtain rfl := Option.some.inj (h3.symm.trans h1)
      have h5 := tri_twin u c.edge
      have h6 : u.tri (twin c.edge) = (vb, vt, e.1) := by
        simp only [Tet.tet, Tet.tri, Prod.mk.injEq] at h2 h4 ⊢
        exact ⟨by rw [← h4.2.1, h2.2.1], by rw [← h4.1, h2.1], by rw [← h4.2.2, h2.2.2.1]⟩
      have h7 := uniq hu h6 (d' := e'.1) (HasTet.same (h.has e' he') (mem_twelve.1 (by simp [twelve, fanTet, hee])))
      refine ⟨e', he', u, hu, ?_⟩
      have h8 : ∀ c, face (twin c) = thirdIdx c := by decide
      have h9 : u.fourth (twin c.edge) = u.third c.edge := congrArg u.vertices (h8 _)
      simp only [Tet.tet, Tet.tri, Prod.mk.injEq] at h5 h7 ⊢
      exact ⟨by rw [← h5.2.1, h7.2.1], by rw [← h5.1, h7.1], by rw [← h9, h7.2.2.2], by rw [← h5.2.2, h7.2.2.1, hee]⟩
  obtain ⟨e, he, u, h1, h2⟩ := key hr ⟨e0, he0, t0, g1, g2⟩
  obtain rfl := Option.some.inj (h1.symm.trans g3)
  exact ⟨e, he, by rw [← g4, h2]; exact turned e⟩


/-- The pairs of vertices of the new tets. -/
def NewPair (news : List V4) (s : VId × VId) : Prop := ∃ q ∈ news, ∃ u ∈ list4 q, ∃ v ∈ list4 q, u ≠ v ∧ s = sorted2 (u, v)

/-- The edges of a mesh. -/
def OldPair (g : Mesh P V T) (s : VId × VId) : Prop := ∃ u v, s = sorted2 (u, v) ∧ HasEdge g u v

theorem hasEdge_swap {m : Mesh P V T} {a b : VId} (h : HasEdge m a b) : HasEdge m b a := by
  obtain ⟨e, ue, h1, h2⟩ := h
  exact ⟨e, ue, h1, by rw [h2, min_comm, max_comm]⟩

theorem Drop.part {news : List V4} (hm : Consistent m) (hg : Consistent g) (htr : m.trackTriMap = true) (h : IsFan m vt vb F)
    (D : Drop m vt vb F gone x em) (hr : Replaces m g (fanTets vt vb F) news)
    (hN : ∀ q ∈ news, ∀ u ∈ list4 q, ∀ v ∈ list4 q, u ≠ v → (∃ e ∈ F, u ∈ list4 (fanTet vt vb e) ∧ v ∈ list4 (fanTet vt vb e)) ∨ ¬ HasEdge m u v)
    (hs : ¬ gone → HasEdge g vt vb) (hgone : gone → ¬ HasEdge g vt vb) :
    Part g (NewPair news) (OldPair g) (fun v => ∃ e ∈ F, v ∈ list4 (fanTet vt vb e)) x em := by
  have hT := hm.toT
  have rest := D.rest
  have hxv : x.vertices = m.vertices := congrArg (fun z => z.vertices) rest
  have memF : ∀ p, p ∈ fanTets vt vb F ↔ ∃ e ∈ F, p = fanTet vt vb e := by
    intro p
    simp only [fanTets, List.mem_map, fanTet, eq_comm]
  have old : ∀ {j t'}, x.tets.get j = some t' → ∃ t, m.tets.get j = some t ∧ { t' with flags := t.flags } = t ∧
      (∀ e ∈ F, ¬ SameTet (fanTet vt vb e) (t.tet 0)) := by
    intro j t' h
    obtain ⟨t, h1, h2⟩ := D.back j t' h
    obtain ⟨t'', h3, h4, -⟩ := D.live j t h1 h2
    obtain rfl := Option.some.inj (h3.symm.trans h)
    exact ⟨t, h1, h4, h2⟩
  have inG : ∀ {p}, HasTet m p → (∀ e ∈ F, ¬ SameTet (fanTet vt vb e) p) → HasTet g p := by
    intro p h1 h2
    refine (hr.2 p).2 (.inl ⟨h1, fun q hq => ?_⟩)
    obtain ⟨e, he, rfl⟩ := (memF q).1 hq
    exact h2 e he
  have sub : ∀ k t, x.tets.get k = some t → HasTet g (t.tet 0) := by
    intro k t ht
    obtain ⟨t0, h1, h2, h3⟩ := old ht
    rw [(tet_flags h2 0).2.1]
    exact inG (hasTet_at h1 0) h3
  have keyEdge : ∀ {s : VId × VId}, s = sorted2 (vt, vb) → OldPair g s → HasEdge g vt vb := by
    rintro s hs ⟨u, v, h1, h2⟩
    rw [h1, sorted2_eq_iff] at hs
    rcases hs with h3 | h3
    · rw [Prod.mk.injEq] at h3
      rw [h3.1, h3.2]
      exact h2
    · rw [Prod.swap_prod_mk, Prod.mk.injEq] at h3
      rw [h3.1, h3.2]
      exact hasEdge_swap h2
  have newIn : ∀ {s}, NewPair news s → OldPair g s := by
    rintro s ⟨q, hq, u, hu, v, hv, huv, rfl⟩
    exact ⟨u, v, rfl, tet_mem_edge hg ((hr.2 q).2 (.inr ⟨q, hq, same_refl q⟩)) hu hv huv⟩
  have edgeIn : ∀ {i ue}, m.edges.get i = some ue → ¬ (gone ∧ ue.vertices = sorted2 (vt, vb)) → OldPair g ue.vertices := by
    intro i ue hi hne
    obtain ⟨k, t, c, h1, h2⟩ := hT.eused i ue hi
    obtain ⟨ue', h3, h4⟩ := hT.eptr k t c h1
    rw [h2] at h3
    obtain rfl := Option.some.inj (h3.symm.trans hi)
    have huv : t.first c ≠ t.second c := (Tet.ne_of_inj (hT.distinct _ _ h1) c).1
    by_cases hfan : ∃ e ∈ F, SameTet (fanTet vt vb e) (t.tet c)
    · obtain ⟨e, he, hs1⟩ := hfan
      obtain ⟨n1, n2, n3, n4, n5⟩ := h.off e he
      -- the neighbours over and under
      obtain ⟨w, hw⟩ := h.has e he
      obtain ⟨w', hw'⟩ := HasTet.same (h.has e he) (q := (e.2, e.1, vb, vt)) (mem_twelve.1 (by simp [twelve, fanTet]))
      obtain ⟨o, -, ho⟩ := hT.adj_tri (tet4_parts hw).2.2.2
      obtain ⟨d, hd⟩ := tri_tet4 ho
      obtain ⟨o', -, ho'⟩ := hT.adj_tri (tet4_parts hw').2.2.2
      obtain ⟨d', hd'⟩ := tri_tet4 ho'
      have gt : HasTet g (vt, e.2, e.1, d) := inG ⟨o, hd⟩ (fun e' he' => h.top hm he he' d)
      have gb : HasTet g (e.1, e.2, vb, d') := inG ⟨o', hd'⟩ (fun e' he' => h.bot hm he he' d')
      have hu : t.first c ∈ list4 (fanTet vt vb e) := (SameTet.mem hs1 _).2 (by simp [list4, Tet.tet])
      have hv : t.second c ∈ list4 (fanTet vt vb e) := (SameTet.mem hs1 _).2 (by simp [list4, Tet.tet])
      by_cases hsp : ue'.vertices = sorted2 (vt, vb)
      · exact ⟨vt, vb, hsp, hs fun hgo => hne ⟨hgo, hsp⟩⟩
      · refine ⟨_, _, h4, ?_⟩
        have hsp' : ¬ ((t.first c = vt ∧ t.second c = vb) ∨ (t.first c = vb ∧ t.second c = vt)) := by
          rintro (⟨h5, h6⟩ | ⟨h5, h6⟩)
          · exact hsp (by rw [h4, Tet.edge, h5, h6])
          · exact hsp (by rw [h4, Tet.edge, h5, h6]; exact (sorted2_eq_iff _ _).2 (.inr rfl))
        have : (t.first c ∈ list4 (vt, e.2, e.1, d) ∧ t.second c ∈ list4 (vt, e.2, e.1, d)) ∨
            (t.first c ∈ list4 (e.1, e.2, vb, d') ∧ t.second c ∈ list4 (e.1, e.2, vb, d')) := by
          revert hu hv hsp'
          generalize t.first c = u
          generalize t.second c = v
          simp only [list4, fanTet, List.mem_cons, List.not_mem_nil, or_false]
          rintro (rfl | rfl | rfl | rfl) (rfl | rfl | rfl | rfl) <;> simp
        rcases this with ⟨h5, h6⟩ | ⟨h5, h6⟩
        · exact tet_mem_edge hg gt h5 h6 huv
        · exact tet_mem_edge hg gb h5 h6 huv
    · refine ⟨_, _, h4, tet_mem_edge hg (inG (hasTet_at h1 c) fun e he hs1 => hfan ⟨e, he, hs1⟩) (u := t.first c) (v := t.second c)
        (by simp [list4, Tet.tet]) (by simp [list4, Tet.tet]) huv⟩
  refine ⟨?_, D.wft, (congrArg (fun z => z.trackTriMap) rest).trans htr, ⟨D.wfe, ?_, ?_, ?_, ?_⟩, sub, ?_, ?_, D.tsound, D.tc, ?_, ?_, ?_⟩
  · rw [hxv]
    exact hT.stored.1
  · intro e e' ue ue' h1 h2 h3
    obtain ⟨u0, g1, g2, -⟩ := D.ekeep e ue h1
    obtain ⟨u1, g3, g4, -⟩ := D.ekeep e' ue' h2
    exact hT.eunique e e' u0 u1 g1 g3 (by rw [← g2, ← g4, h3])
  · intro e ue h1
    obtain ⟨u0, g1, g2, -⟩ := D.ekeep e ue h1
    rw [g2]
    exact edgeIn g1 fun h2 => D.egone h2.1 e ue h1 (g2.trans h2.2)
  · intro s i hs' hi
    obtain ⟨ue0, h1, h2⟩ := D.emok s i hi
    rcases D.eall i ue0 h1 with ⟨ue, h3⟩ | ⟨h3, h4⟩
    · obtain ⟨u0, g1, g2, -⟩ := D.ekeep i ue h3
      obtain rfl := Option.some.inj (g1.symm.trans h1)
      exact ⟨ue, h3, g2.trans h2⟩
    · exact absurd (keyEdge (h2.symm.trans h4) (newIn hs')) (hgone h3)
  · intro e ue h1 h2
    obtain ⟨u0, g1, g2, -⟩ := D.ekeep e ue h1
    obtain ⟨q, hq, u, hu, v, hv, huv, h3⟩ := h2
    rcases hN q hq u hu v hv huv with ⟨f, hf, h4, h5⟩ | h4
    · obtain ⟨i, hi⟩ := D.emdone f hf u h4 v h5 huv
      rw [h3, hi]
      obtain ⟨u1, g3, g4⟩ := D.emok _ _ hi
      rw [hT.eunique _ _ _ _ g3 g1 (by rw [g4, ← g2, h3])]
    · exact absurd ⟨e, u0, g1, by rw [← g2, h3, min_max_sorted2]⟩ h4
  · intro k t c k' t' c' h1 h2 h3
    obtain ⟨u, g1, g2, -⟩ := old h1
    obtain ⟨u', g3, g4, -⟩ := old h2
    exact hT.tunique k u c k' u' c' g1 g3 (by rw [← (tet_flags g2 c).1, ← (tet_flags g4 c').1, h3])
  · intro j t c j' t' c' h1 h2 h3
    obtain ⟨u, g1, g2, -⟩ := old h1
    obtain ⟨u', g3, g4, -⟩ := old h2
    obtain ⟨v, k1, -, k2⟩ := hT.adj j u c g1
    rw [(tet_flags g2 c).2.2.1]
    have h5 := (tet_flags g2 c).1
    simp only [Tet.tri, Prod.mk.injEq] at h5
    obtain ⟨k3, k4⟩ := hT.tunique _ u' c' _ v _ g3 k1 (by
      rw [k2, ← (tet_flags g4 c').1, h3, h5.1, h5.2.1, h5.2.2])
    rw [← k3, ← k4]
  · intro k t c ht
    obtain ⟨u, g1, g2, -⟩ := old ht
    obtain ⟨ue, h1, h2⟩ := hT.eptr k u c g1
    rw [(tet_flags g2 c).2.2.2.1, (tet_flags g2 c).2.2.2.2.1]
    rcases D.eall _ ue h1 with ⟨ue', h3⟩ | ⟨h3, h4⟩
    · obtain ⟨u0, g5, g6, -⟩ := D.ekeep _ ue' h3
      obtain rfl := Option.some.inj (g5.symm.trans h1)
      exact ⟨ue', h3, g6.trans h2⟩
    · refine absurd (keyEdge h4 ⟨u.first c, u.second c, h2, ?_⟩) (hgone h3)
      refine tet_mem_edge hg (HasTet.same (sub k t ht) (codes_same t 0 c)) ?_ ?_ (Tet.ne_of_inj (hT.distinct _ _ g1) c).1
      · rw [(tet_flags g2 c).2.1]; simp [list4, Tet.tet]
      · rw [(tet_flags g2 c).2.1]; simp [list4, Tet.tet]
  · intro v b hb
    rw [hxv] at hb
    rcases hT.vref v b hb with h1 | ⟨t, h1, h2⟩
    · exact .inr (.inl h1)
    · by_cases hfan : ∃ e ∈ F, SameTet (fanTet vt vb e) (t.tet 0)
      · obtain ⟨e, he, hs1⟩ := hfan
        refine .inl ⟨e, he, ?_⟩
        have hs2 := SameTet.trans' hs1 (codes_same t 0 b.tet.edge)
        refine (SameTet.mem hs2 _).2 ?_
        rw [← h2]
        simp [list4, Tet.tet]
      · obtain ⟨t', h3, h4, -⟩ := D.live _ t h1 fun e he hs1 => hfan ⟨e, he, hs1⟩
        refine .inr (.inr ⟨t', h3, ?_⟩)
        have := (tet_flags h4 b.tet.edge).2.2.2.2.1
        simp only [Tet.edge, Prod.mk.injEq] at this
        rw [this.1, h2]
  · intro k t i ht
    obtain ⟨u, g1, g2, -⟩ := old ht
    rw [(tet_flags g2 0).2.2.2.2.2.2.1, hxv]
    rcases hT.vlive k u i g1 with h1 | ⟨b, t', h1, h2, h3⟩
    · exact .inl h1
    · refine .inr ⟨b, h1, .inr fun h4 => ?_⟩
      rw [h4, IdMap.WF.get_max hT.stored.2.2] at h2
      cases h2

end Tet
