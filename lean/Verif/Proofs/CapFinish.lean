import Verif.Proofs.CapPart

/-!
# The mesh after the new tets are in place
-/

namespace Tet
open Spec
variable {P V T : Type} {m g x : Mesh P V T} {vt vb : VId} {F : List (VId × VId)} {em : Mesh.EdgeMap} {gone : Prop}

theorem mem_fan {p : V4} : p ∈ fanTets vt vb F ↔ ∃ e ∈ F, p = fanTet vt vb e := by
  simp only [fanTets, List.mem_map, fanTet, eq_comm]

theorem Drop.has (D : Drop m vt vb F gone x em) (p : V4) : HasTet x p ↔ HasTet m p ∧ ∀ q ∈ fanTets vt vb F, ¬ SameTet q p := by
  constructor
  · rintro ⟨w, hw⟩
    obtain ⟨t, h1, h2⟩ := Mesh.tet4_iff.1 hw
    obtain ⟨t0, h3, h4⟩ := D.back _ t h1
    obtain ⟨t', h5, h6, -⟩ := D.live _ t0 h3 h4
    obtain rfl := Option.some.inj (h5.symm.trans h1)
    rw [(tet_flags h6 _).2.1] at h2
    subst h2
    refine ⟨hasTet_at h3 _, fun q hq hs => ?_⟩
    obtain ⟨e, he, rfl⟩ := mem_fan.1 hq
    exact h4 e he (SameTet.trans' hs (codes_same t0 _ 0))
  · rintro ⟨⟨w, hw⟩, h⟩
    obtain ⟨t, h1, rfl⟩ := Mesh.tet4_iff.1 hw
    obtain ⟨t', h2, h3, -⟩ := D.live _ t h1 fun e he hs => h _ (mem_fan.2 ⟨e, he, rfl⟩) (SameTet.trans' hs (codes_same t 0 _))
    exact ⟨w, Mesh.tet4_iff.2 ⟨t', h2, (tet_flags h3 _).2.1⟩⟩

theorem rotation_mem {r s : V3} (h : Rotation r s) (v : VId) : v ∈ list3 s ↔ v ∈ list3 r := by
  rcases h with rfl | rfl | rfl <;> simp only [list3, List.mem_cons, List.not_mem_nil, or_false] <;> tauto

/-- Three vertices of a tet are one of its triangles or the back of one. -/
theorem tri_within {a b c d p q r : VId} (hp : p ∈ list4 (a, b, c, d)) (hq : q ∈ list4 (a, b, c, d)) (hr : r ∈ list4 (a, b, c, d))
    (h1 : p ≠ q) (h2 : p ≠ r) (h3 : q ≠ r) :
    (∃ o, SameTet (a, b, c, d) (p, q, r, o)) ∨ ∃ o, SameTet (a, b, c, d) (q, p, r, o) := by
  have : ∃ o, (p, q, r, o) ∈ twelve (a, b, c, d) ∨ (q, p, r, o) ∈ twelve (a, b, c, d) := by
    simp only [list4, List.mem_cons, List.not_mem_nil, or_false] at hp hq hr
    rcases hp with rfl | rfl | rfl | rfl <;> rcases hq with rfl | rfl | rfl | rfl <;> first | exact absurd rfl h1 | skip
    all_goals
      rcases hr with rfl | rfl | rfl | rfl <;> first | exact absurd rfl h2 | exact absurd rfl h3 | skip
    all_goals
      first
      | exact ⟨a, by simp [twelve]⟩
      | exact ⟨b, by simp [twelve]⟩
      | exact ⟨c, by simp [twelve]⟩
      | exact ⟨d, by simp [twelve]⟩
  obtain ⟨o, h | h⟩ := this
  · exact .inl ⟨o, mem_twelve.1 h⟩
  · exact .inr ⟨o, mem_twelve.1 h⟩

/-- The locked triangles on the surface of the fan are on its top. -/
def Loose (m : Mesh P V T) (vt vb : VId) (F : List (VId × VId)) : Prop := ∀ p q r, LockedTri m (p, q, r) →
  (∃ e ∈ F, ∃ d, SameTet (fanTet vt vb e) (q, p, r, d)) →
    (∃ e ∈ F, ∃ d, SameTet (fanTet vt vb e) (p, q, r, d)) ∨ ∃ e ∈ F, Rotation (vt, e.2, e.1) (p, q, r)

theorem tet_of_tri (hm : Consistent m) {k t c} {s : V3} {d : VId} (h1 : m.tets.get k = some t) (h2 : t.tri c = s)
    (h : HasTet m (s.1, s.2.1, s.2.2, d)) : t.tet c = (s.1, s.2.1, s.2.2, d) := by
  obtain ⟨w, hw⟩ := h
  obtain ⟨u, h3, h4⟩ := Mesh.tet4_iff.1 hw
  have h5 : u.tri w.edge = s := by
    simp only [Tet.tet, Prod.mk.injEq] at h4
    simp only [Tet.tri, h4.1, h4.2.1, h4.2.2.1]
  obtain ⟨h6, h7⟩ := hm.toT.tunique _ t c _ u w.edge h1 h3 (h5.trans h2.symm)
  rw [h6, h1] at h3
  obtain rfl := Option.some.inj h3
  rw [← h7]
  exact h4

theorem tri_diff (hm : Consistent m) {k t c} {s : V3} (h1 : m.tets.get k = some t) (h2 : t.tri c = s) :
    s.1 ≠ s.2.1 ∧ s.1 ≠ s.2.2 ∧ s.2.1 ≠ s.2.2 := by
  have := hm.distinct ⟨k, c⟩ _ _ _ _ (Mesh.tet4_iff.2 ⟨t, h1, rfl⟩)
  subst h2
  simp only [List.nodup_cons, List.mem_cons, List.not_mem_nil, or_false, not_or] at this
  exact ⟨this.1.1, this.1.2.1, this.2.1.1⟩

theorem Drop.locked (hm : Consistent m) (hf : IsFan m vt vb F) (D : Drop m vt vb F gone x em) (hU : Loose m vt vb F) (s : V3) :
    LockedTri x s ↔ LockedTri m s ∧ ∀ p ∈ fanTets vt vb F, ∃ v ∈ list3 s, v ∉ list4 p := by
  have hT := hm.toT
  constructor
  · intro h
    obtain ⟨j, c, t, h1, h2, h3⟩ := locked_at.1 h
    obtain ⟨t0, h4, h5⟩ := D.back _ t h1
    obtain ⟨t', h6, h7, h8⟩ := D.live _ t0 h4 h5
    obtain rfl := Option.some.inj (h6.symm.trans h1)
    rw [(tet_flags h7 _).1] at h2
    have h9 := (h8 c).1 h3
    have hl : LockedTri m s := locked_at.2 ⟨j, c, t0, h4, h2, h9.1⟩
    refine ⟨hl, fun p hp => ?_⟩
    by_contra hcon
    simp only [not_exists, not_and, not_not] at hcon
    obtain ⟨e, he, rfl⟩ := mem_fan.1 hp
    have hno : ¬ ∃ e ∈ F, ∃ d, SameTet (fanTet vt vb e) (s.1, s.2.1, s.2.2, d) := by
      rintro ⟨e', he', d, hs⟩
      have := tet_of_tri hm h4 h2 (HasTet.same (hf.has e' he') hs)
      rw [← this] at hs
      exact h5 e' he' (SameTet.trans' hs (codes_same t0 c 0))
    obtain ⟨n1, n2, n3⟩ := tri_diff hm h4 h2
    rcases tri_within (hcon s.1 (by simp [list3])) (hcon s.2.1 (by simp [list3])) (hcon s.2.2 (by simp [list3])) n1 n2 n3 with
      ⟨o, ho⟩ | ⟨o, ho⟩
    · exact hno ⟨e, he, o, ho⟩
    · rcases hU s.1 s.2.1 s.2.2 hl ⟨e, he, o, ho⟩ with h10 | ⟨e', he', h10⟩
      · exact hno h10
      · exact h9.2 e' he' (by rw [h2]; exact h10)
  · rintro ⟨hl, hout⟩
    obtain ⟨j, c, t0, h4, h2, h3⟩ := locked_at.1 hl
    have inT : ∀ v ∈ list3 s, v ∈ list4 (t0.tet 0) := by
      intro v hv
      refine (SameTet.mem (codes_same t0 c 0) v).1 ?_
      subst h2
      simp only [list3, Tet.tri, list4, Tet.tet, List.mem_cons, List.not_mem_nil, or_false] at hv ⊢
      tauto
    have h5 : ∀ e ∈ F, ¬ SameTet (fanTet vt vb e) (t0.tet 0) := by
      intro e he hs
      obtain ⟨v, h6, h7⟩ := hout _ (mem_fan.2 ⟨e, he, rfl⟩)
      exact h7 ((SameTet.mem hs v).2 (inT v h6))
    obtain ⟨t', h6, h7, h8⟩ := D.live _ t0 h4 h5
    refine locked_at.2 ⟨j, c, t', h6, (tet_flags h7 _).1.trans h2, (h8 c).2 ⟨h3, fun e he hr => ?_⟩⟩
    obtain ⟨v, h9, h10⟩ := hout _ (mem_fan.2 ⟨e, he, rfl⟩)
    rw [h2] at hr
    have := (rotation_mem hr v).1 h9
    simp only [list3, list4, fanTet, List.mem_cons, List.not_mem_nil, or_false] at this h10
    tauto

theorem either_swap {r s : V3} (h : Either r s) : Either r (s.2.1, s.1, s.2.2) := by
  obtain ⟨a, b, c⟩ := r
  rcases h with (rfl | rfl | rfl) | (rfl | rfl | rfl)
  · exact .inr (.inl rfl)
  · exact .inr (.inr (.inr rfl))
  · exact .inr (.inr (.inl rfl))
  · exact .inl (.inl rfl)
  · exact .inl (.inr (.inr rfl))
  · exact .inl (.inr (.inl rfl))

theorem either_symm {r s : V3} (h : Either r s) : Either s r := by
  obtain ⟨a, b, c⟩ := r
  rcases h with (rfl | rfl | rfl) | (rfl | rfl | rfl)
  · exact .inl (.inl rfl)
  · exact .inl (.inr (.inl rfl))
  · exact .inl (.inr (.inr rfl))
  · exact .inr (.inl rfl)
  · exact .inr (.inr (.inr rfl))
  · exact .inr (.inr (.inl rfl))

theorem hasTri_either (hm : Consistent m) {r s : V3} (h : Either r s) (hl : HasTri m r) : HasTri m s := by
  have sw : ∀ {a b c}, HasTri m (a, b, c) → HasTri m (b, a, c) := by
    rintro a b c ⟨w, hw⟩
    obtain ⟨w', -, h⟩ := hm.toT.adj_tri hw
    exact ⟨w', h⟩
  have ro : ∀ {a b c}, HasTri m (a, b, c) → HasTri m (b, c, a) := by
    intro a b c h
    obtain ⟨d, hd⟩ := hasTri_iff.1 h
    exact hasTri_iff.2 ⟨d, HasTet.same hd (mem_twelve.1 (by simp [twelve]))⟩
  obtain ⟨a, b, c⟩ := r
  rcases h with (rfl | rfl | rfl) | (rfl | rfl | rfl)
  · exact sw hl
  · exact ro (sw hl)
  · exact ro (ro (sw hl))
  · exact hl
  · exact ro hl
  · exact ro (ro hl)

theorem tri_of_cone (hm : Consistent m) {r : V3} {q : V4} (hq : q = (r.2.1, r.1, r.2.2, vt) ∨ q = (r.1, r.2.1, r.2.2, vb)) (h : HasTet m q) :
    HasTri m r := by
  obtain ⟨a, b, c⟩ := r
  rcases hq with rfl | rfl
  · exact hasTri_either hm (.inl (.inl rfl)) (hasTri_iff.2 ⟨_, h⟩)
  · exact hasTri_iff.2 ⟨_, h⟩

/-- The edges which lose their locks. -/
def Freed (vt vb : VId) (F : List (VId × VId)) (gone : Prop) (s : VId × VId) : Prop :=
  (∃ e ∈ F, s = sorted2 (e.2, vt) ∨ s = sorted2 (vt, e.1)) ∨ gone ∧ s = sorted2 (vt, vb)

theorem Drop.keyLocked (D : Drop m vt vb F gone x em) (s : VId × VId) :
    KeyLocked x s ↔ KeyLocked m s ∧ ¬ Freed vt vb F gone s := by
  constructor
  · rintro ⟨i, ue, h1, h2, h3⟩
    obtain ⟨ue0, h4, h5, h6⟩ := D.ekeep i ue h1
    obtain ⟨h7, h8⟩ := h6.1 h3
    rw [← h5, h2] at h8
    refine ⟨⟨i, ue0, h4, by rw [← h5, h2], h7⟩, ?_⟩
    rintro (⟨e, he, h9 | h9⟩ | ⟨h9, h10⟩)
    · exact (h8 e he).1 h9
    · exact (h8 e he).2 h9
    · exact D.egone h9 i ue h1 (h2.trans h10)
  · rintro ⟨⟨i, ue0, h1, h2, h3⟩, h4⟩
    rcases D.eall i ue0 h1 with ⟨ue, h5⟩ | ⟨h5, h6⟩
    · obtain ⟨u, h6, h7, h8⟩ := D.ekeep i ue h5
      obtain rfl := Option.some.inj (h6.symm.trans h1)
      refine ⟨i, ue, h5, h7.trans h2, h8.2 ⟨h3, fun e he => ⟨fun h9 => ?_, fun h9 => ?_⟩⟩⟩
      · exact h4 (.inl ⟨e, he, .inl (h2.symm.trans h9)⟩)
      · exact h4 (.inl ⟨e, he, .inr (h2.symm.trans h9)⟩)
    · exact absurd (.inr ⟨h5, h2.symm.trans h6⟩) h4

/-- What the first part of `Transformed` says, with the locks. -/
structure Remade (m x : Mesh P V T) (vt vb : VId) (F : List (VId × VId)) (gone : Prop) (news : List V4) (tris : List V3) : Prop where
  cons : Consistent x
  replaces : Replaces m x (fanTets vt vb F) news
  kept : ∀ k t, m.tets.get k = some t → (∀ p ∈ fanTets vt vb F, ¬ SameTet p (t.tet 0)) →
    ∃ t', x.tets.get k = some t' ∧ t'.vertices = t.vertices ∧ t'.value = t.value
  points : ∀ v, (x.vertices.get v).map unref = (m.vertices.get v).map unref
  center : x.center = m.center
  tracked : x.trackTriMap = true
  locked : ∀ s, LockedTri x s ↔ (LockedTri m s ∧ ∀ p ∈ fanTets vt vb F, ∃ v ∈ list3 s, v ∉ list4 p) ∨ ∃ r ∈ tris, Either r s
  elocked : ∀ s, KeyLocked x s ↔ (KeyLocked m s ∧ ¬ Freed vt vb F gone s) ∨ s ∈ (triSides tris).map sorted2

theorem Drop.finish {sp : List V4} {tris : List V3} {x1 : Mesh P V T} {em1 : Mesh.EdgeMap} {n : Nat} {pend : VId → Prop}
    (hm : Consistent m) (hg : Consistent g) (hf : IsFan m vt vb F)
    (D : Drop m vt vb F gone x em) (hr : Replaces m g (fanTets vt vb F) (sp ++ coneTets vt vb tris))
    (hp : Part g (NewPair (sp ++ coneTets vt vb tris)) (OldPair g) pend x1 em1)
    (G : Grow x x1 sp (fun _ => False) (fun _ => False) n)
    (hpend : ∀ v, pend v → ∃ q ∈ coneTets vt vb tris, v ∈ list4 q)
    (hnot : ∀ r ∈ tris, ¬ HasTri m r)
    (pw : (sp ++ coneTets vt vb tris).Pairwise fun p q => ¬ SameTet p q)
    (live : ∀ q ∈ coneTets vt vb tris, ∀ v ∈ list4 q, ∃ b, m.vertices.get v = some b) (fuel : Nat)
    (room : x1.tets.size + 2 * tris.length ≤ idMax) (eroom : x1.edges.size + 12 * tris.length ≤ idMax) :
    ∃ x' em', tris.foldlM (Mesh.capPut fuel vt vb) (x1, em1) = some (x', em') ∧
      Replaces m x' (fanTets vt vb F) (sp ++ coneTets vt vb tris) ∧ (Consistent x' → Loose m vt vb F) ∧
      (Loose m vt vb F → Remade m x' vt vb F gone (sp ++ coneTets vt vb tris) tris) := by
  have hT := hm.toT
  have hxv : x.vertices = m.vertices := congrArg (fun z => z.vertices) D.rest
  rw [List.pairwise_append] at pw
  have fits : ∀ q ∈ coneTets vt vb tris, Fits g (NewPair (sp ++ coneTets vt vb tris)) (OldPair g) x1 q := by
    intro q hq
    have hq' : q ∈ sp ++ coneTets vt vb tris := List.mem_append.2 (.inr hq)
    have hgq : HasTet g q := (hr.2 q).2 (.inr ⟨q, hq', same_refl q⟩)
    refine ⟨hgq, fun h => ?_, fun u hu v hv huv => ⟨⟨q, hq', u, hu, v, hv, huv, rfl⟩, u, v, rfl, tet_mem_edge hg hgq hu hv huv⟩, ?_⟩
    · rcases (G.has q).1 h with h1 | ⟨p, h1, h2⟩
      · obtain ⟨r, h2, h3⟩ := mem_cones.1 hq
        exact hnot r h2 (tri_of_cone hm h3 ((D.has q).1 h1).1)
      · exact pw.2.2 p h1 q hq h2
    · intro v hv
      obtain ⟨b, hb⟩ := live q hq v hv
      exact G.live ⟨b, by rw [hxv, hb]⟩
  obtain ⟨x', em', h1, h2, G'⟩ := hp.puts hg fuel vt vb tris fits pw.2.1 room eroom
  have GG := G.trans G'
  have hp' : Part g (NewPair (sp ++ coneTets vt vb tris)) (OldPair g) (fun _ => False) x' em' := by
    refine cast (congrArg (fun z => Part g _ _ z x' em') (funext fun v => eq_false ?_)) h2
    rintro ⟨h3, h4⟩
    obtain ⟨q, h5, h6⟩ := hpend v h3
    exact h4 q h5 h6
  have hrep : ∀ q, HasTet x' q ↔ (HasTet m q ∧ ∀ p ∈ fanTets vt vb F, ¬ SameTet p q) ∨ ∃ p ∈ sp ++ coneTets vt vb tris, SameTet p q := by
    intro q
    rw [GG.has, D.has]
  refine ⟨x', em', h1, ⟨hr.1, hrep⟩, ?_, ?_⟩
  · rintro hx p q r hl ⟨e, he, d, hs⟩
    by_contra hcon
    rw [not_or, not_exists, not_exists] at hcon
    obtain ⟨j, c, t, k1, k2, k3⟩ := locked_at.1 hl
    have k4 : ∀ e ∈ F, ¬ SameTet (fanTet vt vb e) (t.tet 0) := by
      intro e' he' hs'
      have k5 := SameTet.trans' hs' (codes_same t 0 c)
      rw [show t.tet c = (p, q, r, t.fourth c) from by
        simp only [Tet.tri, Prod.mk.injEq] at k2
        simp only [Tet.tet, k2.1, k2.2.1, k2.2.2]] at k5
      exact hcon.1 e' ⟨he', _, k5⟩
    obtain ⟨t', k5, k6, k7⟩ := D.live j t k1 k4
    have k8 : LockedTri x' (p, q, r) := (GG.locked _).2 (.inl (locked_at.2 ⟨j, c, t', k5, (tet_flags k6 c).1.trans k2,
      (k7 c).2 ⟨k3, fun e' he' hro => hcon.2 e' ⟨he', k2 ▸ hro⟩⟩⟩))
    rcases (GG.locked _).1 (hx.toT.lockedTri_swap k8).1 with k9 | k9 | ⟨r', k9, k10⟩
    · obtain ⟨j2, c2, t2, l1, l2, -⟩ := locked_at.1 k9
      obtain ⟨t3, l3, l4⟩ := D.back _ t2 l1
      obtain ⟨t4, l5, l6, -⟩ := D.live _ t3 l3 l4
      obtain rfl := Option.some.inj (l5.symm.trans l1)
      rw [(tet_flags l6 _).1] at l2
      have l7 := tet_of_tri hm l3 l2 (HasTet.same (hf.has e he) hs)
      refine l4 e he (SameTet.trans' hs ?_)
      rw [← l7]
      exact codes_same t3 c2 0
    · exact k9
    · exact hnot r' k9 (hasTri_either hm (either_symm k10) (hasTri_iff.2 ⟨d, HasTet.same (hf.has e he) hs⟩))
  intro hU
  have hlock : ∀ s, LockedTri x' s ↔ (LockedTri m s ∧ ∀ p ∈ fanTets vt vb F, ∃ v ∈ list3 s, v ∉ list4 p) ∨ ∃ r ∈ tris, Either r s := by
    intro s
    rw [GG.locked, D.locked hm hf hU, false_or]
  have hsw : ∀ {s : V3}, LockedTri x' s → LockedTri x' (s.2.1, s.1, s.2.2) := by
    intro s h
    rw [hlock] at h ⊢
    rcases h with ⟨h3, h4⟩ | ⟨r, h3, h4⟩
    · refine .inl ⟨(hT.lockedTri_swap h3).1, fun p hp => ?_⟩
      obtain ⟨v, h5, h6⟩ := h4 p hp
      refine ⟨v, ?_, h6⟩
      simp only [list3, List.mem_cons, List.not_mem_nil, or_false] at h5 ⊢
      tauto
    · exact .inr ⟨r, h3, either_swap h4⟩
  have half : ∀ {j t e j' t' e'}, x'.tets.get j = some t → x'.tets.get j' = some t' → Twin t e t' e' →
      t.flags.locked (face e) = true → t'.flags.locked (face e') = true := by
    intro j t e j' t' e' k1 k2 k3 k4
    obtain ⟨j2, c2, t2, k5, k6, k7⟩ := locked_at.1 (hsw (locked_at.2 ⟨j, e, t, k1, rfl, k4⟩))
    obtain ⟨k8, k9⟩ := hp'.uniq _ _ _ _ _ _ k2 k5 (k6.trans (Eq.symm k3))
    rw [k8, k2] at k5
    obtain rfl := Option.some.inj k5
    rw [← k9]
    exact k7
  refine ⟨?_, ⟨hr.1, hrep⟩, ?_, ?_, GG.cen.trans (congrArg (fun z => z.center) D.rest), hp'.track, hlock, ?_⟩
  · refine hp'.consistent hg (fun p h => ?_) (fun s h => h) ?_
    · rw [hrep]
      exact (hr.2 p).1 h
    · intro j t e j' t' e' k1 k2 k3
      have a := half k1 k2 k3
      have b := half k2 k1 k3.symm
      cases h3 : t.flags.locked (face e) <;> cases h4 : t'.flags.locked (face e') <;> simp_all
  · intro k t k1 k2
    obtain ⟨t1, k3, k4, -⟩ := D.live k t k1 fun e he => k2 _ (mem_fan.2 ⟨e, he, rfl⟩)
    obtain ⟨t2, k5, k6, k7⟩ := GG.keep k t1 k3
    exact ⟨t2, k5, k6.trans (tet_flags k4 0).2.2.2.2.2.2.1, k7.trans (tet_flags k4 0).2.2.2.2.2.2.2⟩
  · intro v
    rw [GG.vat, hxv]
  · intro s
    rw [GG.elocked, D.keyLocked, false_or]

end Tet
