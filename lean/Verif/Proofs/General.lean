import Verif.Spec.General
import Verif.Proofs.Intersect
import Verif.Proofs.FanLine
import Verif.Proofs.FanWalk
import Mathlib.Data.List.Permutation
import Mathlib.Tactic.LinearCombination

/-!
# The search for what is in the way of an edge, in general position
-/

namespace Tet
open Spec Vec4
variable {K V T : Type} [Field K] [LinearOrder K] [IsStrictOrderedRing K]

/-- The five determinants that `tri_edge_bary` computes have the same sign iff the segment meets the triangle. -/
theorem hits_iff {h : VId → Vec4 K} {a b c v0 v1 : VId} :
    (∃ t, Hits h v0 v1 a b c t) ∧ D h (a, b, c, v0) ≠ 0 ↔
      0 < D h (b, c, v0, v1) ∧ 0 < D h (c, a, v0, v1) ∧ 0 < D h (a, b, v0, v1) ∧ 0 < D h (a, b, c, v1) ∧ 0 < D h (c, b, a, v0) ∨
      D h (b, c, v0, v1) < 0 ∧ D h (c, a, v0, v1) < 0 ∧ D h (a, b, v0, v1) < 0 ∧ D h (a, b, c, v1) < 0 ∧ D h (c, b, a, v0) < 0 := by
  have e4 : D h (a, b, c, v0) = -D h (c, b, a, v0) := by simp only [D, det, det3]; ring
  have e4' : det (h a) (h b) (h c) (h v0) = -D h (c, b, a, v0) := e4
  have e3 : det (h b) (h a) (h c) (h v1) = -D h (a, b, c, v1) := Vec4.swap0 ..
  constructor
  · rintro ⟨⟨t, t0, t1, ka, kb, kc, pa, pb, pc, hx⟩, hne⟩
    have q0 : t * D h (b, c, v0, v1) = ka * D h (c, b, a, v0) := by
      have := congrArg (det (h b) (h c) (h v0)) hx
      rw [show pt h v0 v1 t = (1 - t) • h v0 + t • h v1 by simp only [pt]; module] at this
      simp only [det_add, det_smul, self0, self1, self2, mul_zero, zero_add, add_zero] at this
      rw [show det (h b) (h c) (h v0) (h a) = D h (c, b, a, v0) by simp only [D, det, det3]; ring] at this
      exact this
    have q1 : t * D h (c, a, v0, v1) = kb * D h (c, b, a, v0) := by
      have := congrArg (det (h c) (h a) (h v0)) hx
      rw [show pt h v0 v1 t = (1 - t) • h v0 + t • h v1 by simp only [pt]; module] at this
      simp only [det_add, det_smul, self0, self1, self2, mul_zero, zero_add, add_zero] at this
      rw [show det (h c) (h a) (h v0) (h b) = D h (c, b, a, v0) by simp only [D, det, det3]; ring] at this
      exact this
    have q2 : t * D h (a, b, v0, v1) = kc * D h (c, b, a, v0) := by
      have := congrArg (det (h a) (h b) (h v0)) hx
      rw [show pt h v0 v1 t = (1 - t) • h v0 + t • h v1 by simp only [pt]; module] at this
      simp only [det_add, det_smul, self0, self1, self2, mul_zero, zero_add, add_zero] at this
      rw [show det (h a) (h b) (h v0) (h c) = D h (c, b, a, v0) by simp only [D, det, det3]; ring] at this
      exact this
    have q3 : t * D h (a, b, c, v1) = (1 - t) * D h (c, b, a, v0) := by
      have := congrArg (det (h a) (h b) (h c)) hx
      rw [show pt h v0 v1 t = (1 - t) • h v0 + t • h v1 by simp only [pt]; module] at this
      simp only [det_add, det_smul, self0, self1, self2, mul_zero, add_zero] at this
      rw [e4'] at this
      change _ + t * D h (a, b, c, v1) = 0 at this
      linarith
    have t1' : 0 < 1 - t := by linarith
    rw [e4] at hne
    rcases lt_trichotomy (D h (c, b, a, v0)) 0 with k | k | k
    · have neg : ∀ {x y : K}, 0 < y → t * x = y * D h (c, b, a, v0) → x < 0 := fun hy hxy =>
        neg_of_mul_neg_right (by rw [hxy]; exact mul_neg_of_pos_of_neg hy k) t0.le
      exact .inr ⟨neg pa q0, neg pb q1, neg pc q2, neg t1' q3, k⟩
    · exact absurd (by rw [k, neg_zero]) hne
    · have pos : ∀ {x y : K}, 0 < y → t * x = y * D h (c, b, a, v0) → 0 < x := fun hy hxy =>
        (mul_pos_iff_of_pos_left t0).1 (by rw [hxy]; exact mul_pos hy k)
      exact .inl ⟨pos pa q0, pos pb q1, pos pc q2, pos t1' q3, k⟩
  · intro hs
    have hf := Vec4.five (h a) (h b) (h c) (h v0) (h v1)
    rw [e3, e4'] at hf
    change D h (b, c, v0, v1) • h a + D h (c, a, v0, v1) • h b + D h (a, b, v0, v1) • h c + _ + _ = 0 at hf
    rw [e4]
    generalize D h (b, c, v0, v1) = b0 at *
    generalize D h (c, a, v0, v1) = b1 at *
    generalize D h (a, b, v0, v1) = b2 at *
    generalize D h (a, b, c, v1) = b3 at *
    generalize D h (c, b, a, v0) = b4 at *
    have hn : b3 + b4 ≠ 0 := by
      rcases hs with hs | hs
      · exact (by linarith [hs.2.2.2.1, hs.2.2.2.2] : 0 < b3 + b4).ne'
      · exact (by linarith [hs.2.2.2.1, hs.2.2.2.2] : b3 + b4 < 0).ne
    obtain ⟨u, hu⟩ : ∃ u, u * (b3 + b4) = 1 := ⟨(b3 + b4)⁻¹, inv_mul_cancel₀ hn⟩
    have sg : 0 < b0 * u ∧ 0 < b1 * u ∧ 0 < b2 * u ∧ 0 < b3 * u ∧ 0 < b4 * u := by
      rcases hs with ⟨h0, h1, h2, h3, h4⟩ | ⟨h0, h1, h2, h3, h4⟩
      · have : 0 < u := (mul_pos_iff_of_pos_right (by linarith : 0 < b3 + b4)).1 (by rw [hu]; exact one_pos)
        exact ⟨mul_pos h0 this, mul_pos h1 this, mul_pos h2 this, mul_pos h3 this, mul_pos h4 this⟩
      · have : u < 0 := by
          by_contra hc
          have := mul_nonpos_of_nonneg_of_nonpos (not_lt.1 hc) (by linarith : b3 + b4 ≤ 0)
          rw [hu] at this
          exact absurd this (by simp)
        exact ⟨mul_pos_of_neg_of_neg h0 this, mul_pos_of_neg_of_neg h1 this, mul_pos_of_neg_of_neg h2 this,
          mul_pos_of_neg_of_neg h3 this, mul_pos_of_neg_of_neg h4 this⟩
    obtain ⟨s0, s1, s2, s3, s4⟩ := sg
    have hu' : b3 * u + b4 * u = 1 := by rw [← hu]; ring
    refine ⟨⟨b4 * u, s4, by linarith, b0 * u, b1 * u, b2 * u, s0, s1, s2, ?_⟩, ?_⟩
    · have e := congrArg (fun x => u • x) hf
      simp only [smul_zero, smul_add] at e
      have hb : b3 * u = 1 - b4 * u := by linarith
      have : u • -b3 • h v0 = -((1 - b4 * u) • h v0) := by rw [← hb]; module
      rw [this] at e
      have e2 : ∀ X Y : Vec4 K, X - Y = 0 → Y = X := fun X Y hxy => (sub_eq_zero.1 hxy).symm
      apply e2
      rw [← e]
      simp only [pt]
      module
    · intro hz
      rw [neg_eq_zero.1 hz, zero_mul] at s4
      exact absurd s4 (lt_irrefl _)

/-- The test says that the edge crosses the triangle iff the segment meets it. -/
theorem triIntersects_iff {m : Mesh (Pt K) V T} {a b c v0 v1 : VId} (ha : Spec.Placed m a) (hb : Spec.Placed m b)
    (hc : Spec.Placed m c) (h0 : Spec.Placed m v0) (h1 : Spec.Placed m v1) : m.triIntersectsEdge a b c v0 v1 = some true ↔
      (∃ t, Hits (homv m) v0 v1 a b c t) ∧ D (homv m) (a, b, c, v0) ≠ 0 := by
  rw [hits_iff]
  obtain ⟨x0, k0⟩ := orient_some hb hc h0 h1
  obtain ⟨x1, k1⟩ := orient_some hc ha h0 h1
  obtain ⟨x2, k2⟩ := orient_some ha hb h0 h1
  obtain ⟨x3, k3⟩ := orient_some ha hb hc h1
  obtain ⟨x4, k4⟩ := orient_some hc hb ha h0
  rw [orient_D k0, orient_D k1, orient_D k2, orient_D k3, orient_D k4]
  simp [Mesh.triIntersectsEdge, Mesh.triEdgeBary, k0, k1, k2, k3, k4, Mesh.sameSign]

/-- An edge that starts at a vertex of another one does not cross it, and neither does one that is not in a plane with it. -/
theorem no_edge {m : Mesh (Pt K) V T} (hf : NoFlat m) {a b v0 v1 : VId} (hab : a ≠ b) (hv : v0 ≠ v1) :
    m.edgeIntersectsEdge a b v0 v1 ≠ some true := by
  intro hx
  unfold Mesh.edgeIntersectsEdge at hx
  obtain ⟨o, ho, hx⟩ := Option.bind_eq_some_iff.1 hx
  split_ifs at hx with h0
  · cases hx
  have h0 : o = 0 := not_not.1 h0
  subst h0
  have hn : ¬ [a, b, v0, v1].Nodup := fun hn => hf _ _ _ _ hn ho
  obtain ⟨l, hl, hx⟩ := Option.bind_eq_some_iff.1 hx
  unfold Mesh.edgeEdgeBary at hl
  obtain ⟨p0, h0, hl⟩ := Option.bind_eq_some_iff.1 hl
  obtain ⟨p1, h1, hl⟩ := Option.bind_eq_some_iff.1 hl
  obtain ⟨p2, h2, hl⟩ := Option.bind_eq_some_iff.1 hl
  obtain ⟨p3, h3, hl⟩ := Option.bind_eq_some_iff.1 hl
  dsimp only at hl
  have hn : a = v0 ∨ a = v1 ∨ b = v0 ∨ b = v1 := by
    by_contra hc
    push Not at hc
    exact hn (by simp [hab, hv, hc.1, hc.2.1, hc.2.2.1, hc.2.2.2])
  split at hl
  · cases hl
    simp [Mesh.sameSign, pure] at hx
  · cases hl
    have z1 : ∀ p q r : Pt K, orient3d p q q r = 0 := fun p q r => by simp only [orient3d, Pt.dot, Pt.cross, Pt.sub]; ring
    have z2 : ∀ p q r : Pt K, orient3d p p q r = 0 := fun p q r => by simp only [orient3d, Pt.dot, Pt.cross, Pt.sub]; ring
    have z3 : ∀ p q r : Pt K, orient3d q p q r = 0 := fun p q r => by simp only [orient3d, Pt.dot, Pt.cross, Pt.sub]; ring
    rcases hn with rfl | rfl | rfl | rfl
    · rw [h0] at h2
      cases h2
      simp [Mesh.sameSign, pure, z1, z2, z3] at hx
    · rw [h0] at h3
      cases h3
      simp [Mesh.sameSign, pure, z1, z2, z3] at hx
    · rw [h1] at h2
      cases h2
      simp [Mesh.sameSign, pure, z1, z2, z3] at hx
    · rw [h1] at h3
      cases h3
      simp [Mesh.sameSign, pure, z1, z2, z3] at hx

theorem Spec.NoFlat.generic {m : Mesh (Pt K) V T} (hf : NoFlat m) (hm : Consistent m) (ht : Tiles m) :
    Generic (homv m) last4 (HasTet m) (Spec.Placed m) where
  fan := ht.fan hm.toT
  adj a b c d := by
    rintro ⟨w, hw⟩
    obtain ⟨w', z, -, -, h1⟩ := toAcross hm hw
    exact ⟨z, w', h1⟩
  verts a b c d hq := ⟨placed_tet hm hq (by simp [list4]), placed_tet hm hq (by simp [list4]), placed_tet hm hq (by simp [list4]),
    placed_tet hm hq (by simp [list4])⟩
  gen a b c d hn ha hb hc hd h0 := by
    obtain ⟨x, hx⟩ := orient_some ha hb hc hd
    rw [orient_D hx] at h0
    exact hf a b c d hn (by rw [hx, h0])

theorem solid_placed {P : Type} {m : Mesh P V T} (hm : Consistent m) {v : VId} (h : Solid m v) : Spec.Placed m v := by
  obtain ⟨⟨w, hw⟩, -⟩ := h
  exact placed_first hm hw

theorem solid_wt {m : Mesh (Pt K) V T} {v : VId} (h : Solid m v) : 0 < last4 (homv m v) := homv_solids m v h.2

/-- A vertex of the mesh is the last vertex of a tet. -/
theorem inMesh_last {P : Type} {m : Mesh P V T} {v : VId} (h : InMesh m v) : ∃ x y z, HasTet m (x, y, z, v) := by
  obtain ⟨w, hw⟩ := h
  obtain ⟨⟨a, b, c, d⟩, hq⟩ := onTet_first hw
  have := (tet4_parts hq).1
  rw [hw] at this
  cases this
  exact ⟨d, c, b, HasTet.same ⟨w, hq⟩ (mem_twelve.1 (by simp [twelve]))⟩

variable {m : Mesh (Pt K) V T} {v0 v1 : VId}

theorem crossed_hits (hm : Consistent m) (h0 : Solid m v0) (h1 : Solid m v1) {t : V3} (h : CrossedBy m v0 v1 (.tri t)) :
    HasTri m t ∧ (∃ s, HitsAt (homv m) v0 v1 t s) ∧ D (homv m) (t.1, t.2.1, t.2.2, v0) ≠ 0 := by
  obtain ⟨a, b, c⟩ := t
  obtain ⟨d, hd⟩ := hasTri_iff.1 h.1
  exact ⟨h.1, (triIntersects_iff (placed_tet hm hd (by simp [list4])) (placed_tet hm hd (by simp [list4]))
    (placed_tet hm hd (by simp [list4])) (solid_placed hm h0) (solid_placed hm h1)).1 h.2⟩

theorem hits_crossed (hm : Consistent m) (h0 : Solid m v0) (h1 : Solid m v1) {a b c : VId} (ht : HasTri m (a, b, c)) {s : K}
    (hs : Hits (homv m) v0 v1 a b c s) (hD : D (homv m) (a, b, c, v0) ≠ 0) : CrossedBy m v0 v1 (.tri (a, b, c)) := by
  obtain ⟨d, hd⟩ := hasTri_iff.1 ht
  exact ⟨ht, (triIntersects_iff (placed_tet hm hd (by simp [list4])) (placed_tet hm hd (by simp [list4]))
    (placed_tet hm hd (by simp [list4])) (solid_placed hm h0) (solid_placed hm h1)).2 ⟨⟨s, hs⟩, hD⟩⟩

theorem no_edge_crossed (hm : Consistent m) (hf : NoFlat m) (hv : v0 ≠ v1) (e : VId × VId) : ¬ CrossedBy m v0 v1 (.edge e) := by
  obtain ⟨a, b⟩ := e
  rintro ⟨h1, h2⟩
  obtain ⟨c, d, w, hw⟩ := hm.toT.hasEdge_tet.1 h1
  have := hm.distinct _ _ _ _ _ hw
  exact no_edge hf (by simp at this; exact this.1.1) hv h2

theorem only_tris (hm : Consistent m) (hf : NoFlat m) (hv : v0 ≠ v1) :
    ∀ l : List EdgeOrTri, (∀ g ∈ l, CrossedBy m v0 v1 g) → ∃ l' : List V3, l = l'.map .tri
  | [], _ => ⟨[], rfl⟩
  | .edge e :: _, h => (no_edge_crossed hm hf hv e (h _ List.mem_cons_self)).elim
  | .tri t :: l, h => by
    obtain ⟨l', rfl⟩ := only_tris hm hf hv l fun g hg => h g (List.mem_cons_of_mem _ hg)
    exact ⟨t :: l', rfl⟩

theorem ahead_of (hm : Consistent m) {g g' : V3} (hs : EdgeOrTri.sorted (.tri g) ≠ EdgeOrTri.sorted (.tri g'))
    (h : ∃ a b c d, HasTet m (a, b, c, d) ∧ (∀ v ∈ corners (.tri g) ++ corners (.tri g'), v ∈ [a, b, c, d]) ∧
      Beyond (a, b, c, d) (.tri g) ∧ FaceOf (a, b, c, d) (.tri g')) : Ahead (HasTet m) g g' := by
  obtain ⟨a, b, c, d, h1, -, ⟨e, h2⟩, ⟨w, h3⟩⟩ := h
  obtain ⟨x, y, z⟩ := g
  obtain ⟨x', y', z'⟩ := g'
  have h4 := HasTet.same h1 h2
  have h5 := SameTet.trans' (SameTet.symm' h2) h3
  refine ⟨e, w, h4, h5, fun hwe => hs ?_⟩
  obtain ⟨u, hu⟩ := h4
  have hn := hm.distinct _ _ _ _ _ hu
  simp only [List.nodup_cons, List.mem_cons, List.not_mem_nil, or_false, not_or, not_false_eq_true, List.nodup_nil, and_true] at hn
  rw [← mem_twelve] at h5
  simp only [twelve, List.mem_cons, List.not_mem_nil, or_false, Prod.mk.injEq] at h5
  have : (x', y', z') ∈ six3 (x, y, z) := by
    simp only [six3, List.mem_cons, List.not_mem_nil, or_false, Prod.mk.injEq]
    rcases h5 with h5 | h5 | h5 | h5 | h5 | h5 | h5 | h5 | h5 | h5 | h5 | h5 <;> obtain ⟨rfl, rfl, rfl, rfl⟩ := h5 <;>
      first
        | exact absurd hwe (by omega)
        | simp
  simp only [EdgeOrTri.sorted, sorted3_six3 this]

theorem done_of (hm : Consistent m) (hf : NoFlat m) (ht : Tiles m) (h0 : Solid m v0) (h1 : Solid m v1) {g : V3} {p : Option EdgeOrTri}
    (h : EndsAt m v0 v1 p (.tri g)) : Done (homv m) (HasTet m) v0 v1 g := by
  obtain ⟨a, b, c⟩ := g
  obtain ⟨d, hd, he⟩ := h
  refine ⟨d, hd, he.imp id fun he => ?_⟩
  have hg := hf.generic hm ht
  have key : ∀ x y w t, SameTet (b, a, c, d) (x, y, d, w) → v0 ∉ [x, y, d] → ¬ Hits (homv m) v0 v1 x y d t := by
    intro x y w t hs hv hh
    have hq := HasTet.same hd hs
    obtain ⟨u, hu⟩ := hq
    have hn := hm.distinct _ _ _ _ _ hu
    simp only [List.nodup_cons, List.mem_cons, List.not_mem_nil, or_false, not_or, not_false_eq_true, List.nodup_nil, and_true] at hn hv
    have kx := sameTet_in (SameTet.symm' hs) (v := x) (.inl rfl)
    have ky := sameTet_in (SameTet.symm' hs) (v := y) (.inr (.inl rfl))
    refine (he x ?_).2 y ?_ (hits_crossed hm h0 h1 (hasTri_iff.2 ⟨w, u, hu⟩) hh ?_)
    · simp only [List.mem_cons, List.not_mem_nil, or_false]
      omega
    · simp only [List.mem_cons, List.not_mem_nil, or_false]
      omega
    · have := hg.verts _ _ _ _ ⟨u, hu⟩
      refine hg.gen _ _ _ _ ?_ this.1 this.2.1 this.2.2.1 (solid_placed hm h0)
      simp only [List.nodup_cons, List.mem_cons, List.not_mem_nil, or_false, not_or, not_false_eq_true, List.nodup_nil, and_true]
      omega
  intro x y z w t hs hw hv hh
  have ro : ∀ {x y z w : VId}, SameTet (b, a, c, d) (x, y, z, w) → SameTet (b, a, c, d) (y, z, x, w) := fun h =>
    SameTet.trans' h (mem_twelve.1 (by simp [twelve]))
  rcases sameTet_in hs (v := d) (.inr (.inr (.inr rfl))) with h2 | h2 | h2 | h2
  · subst h2
    exact key y z w t (ro hs) (by simp at hv ⊢; tauto) hh.rot
  · subst h2
    exact key z x w t (ro (ro hs)) (by simp at hv ⊢; tauto) hh.rot.rot
  · subst h2
    exact key x y w t hs hv hh
  · exact absurd h2.symm hw

/-- What a trail is in general position. -/
theorem Spec.Trail.line (hm : Consistent m) (ht : Tiles m) (hf : NoFlat m) (h0 : Solid m v0) (h1 : Solid m v1)
    {g : V3} {l : List V3} (h : Trail m v0 v1 ((g :: l).map .tri)) :
    HasTet m (g.1, g.2.1, g.2.2, v0) ∧ (g :: l).IsChain (Ahead (HasTet m)) ∧ (∀ g' ∈ g :: l, ∃ t, HitsAt (homv m) v0 v1 g' t) ∧
      (g :: l).Pairwise fun g' g'' => ∀ s s', HitsAt (homv m) v0 v1 g' s → HitsAt (homv m) v0 v1 g'' s' → s < s' := by
  have hg := hf.generic hm ht
  have hh : ∀ g' ∈ g :: l, ∃ t, HitsAt (homv m) v0 v1 g' t := fun g' hg' =>
    (crossed_hits hm h0 h1 (h.crossed (.tri g') (List.mem_map_of_mem hg'))).2.1
  have hc : (g :: l).IsChain (Ahead (HasTet m)) := by
    refine (List.isChain_map (f := EdgeOrTri.tri)).1 h.next |>.imp fun g g' hgg => ?_
    exact ahead_of hm hgg.1 hgg.2
  have hs : HasTet m (g.1, g.2.1, g.2.2, v0) := by
    obtain ⟨a, b, c, k1, k2, w, k3⟩ := h.start (.tri g) rfl
    obtain ⟨x, y, z⟩ := g
    have k4 := HasTet.same k1 k3
    rcases sameTet_in k3 (v := v0) (.inl rfl) with h2 | h2 | h2 | h2
    · exact absurd (by rw [← h2]; exact self0 ..) (crossed_hits hm h0 h1 (h.crossed (.tri (x, y, z)) (by simp))).2.2
    · exact absurd (by rw [← h2]; exact self1 ..) (crossed_hits hm h0 h1 (h.crossed (.tri (x, y, z)) (by simp))).2.2
    · exact absurd (by rw [← h2]; exact self2 ..) (crossed_hits hm h0 h1 (h.crossed (.tri (x, y, z)) (by simp))).2.2
    · rw [← h2] at k4
      exact k4
  exact ⟨hs, hc, hh, (hg.along (solid_wt h0) (solid_wt h1) (solid_placed hm h0) (inMesh_last h1.1) hs hc hh).2⟩

theorem sameThree_six3 {s t : V3} : SameThree s t ↔ t ∈ six3 s := by
  obtain ⟨a, b, c⟩ := s
  obtain ⟨x, y, z⟩ := t
  constructor
  · intro h
    have h := List.mem_permutations.2 h.symm
    have e : [a, b, c].permutations = [[a, b, c], [b, a, c], [c, b, a], [b, c, a], [c, a, b], [a, c, b]] := by
      simp [List.permutations, List.permutationsAux, List.permutationsAux.rec, List.permutationsAux2]
    rw [e] at h
    simp only [List.mem_cons, List.not_mem_nil, or_false, List.cons.injEq, and_true] at h
    simp only [six3, List.mem_cons, List.not_mem_nil, or_false, Prod.mk.injEq]
    rcases h with ⟨rfl, rfl, rfl⟩ | ⟨rfl, rfl, rfl⟩ | ⟨rfl, rfl, rfl⟩ | ⟨rfl, rfl, rfl⟩ | ⟨rfl, rfl, rfl⟩ | ⟨rfl, rfl, rfl⟩ <;> simp
  · intro h
    exact perm_of_six3 h

theorem HitsAt.six3 {h : VId → Vec4 K} {s t : V3} (hs : t ∈ six3 s) {x : K} (hx : HitsAt h v0 v1 s x) : HitsAt h v0 v1 t x := by
  obtain ⟨a, b, c⟩ := s
  simp only [Tet.six3, List.mem_cons, List.not_mem_nil, or_false] at hs
  have hx : Hits h v0 v1 a b c x := hx
  rcases hs with rfl | rfl | rfl | rfl | rfl | rfl
  · exact hx
  · exact hx.rot
  · exact hx.rot.rot
  · exact hx.swap
  · exact hx.rot.rot.swap
  · exact hx.rot.swap

theorem hits_meets (hm : Consistent m) (h0 : Solid m v0) (h1 : Solid m v1) {t : V3} (h : CrossedBy m v0 v1 (.tri t)) {s : K}
    (hs : HitsAt (homv m) v0 v1 t s) : MeetsAt m v0 v1 t s := by
  obtain ⟨a, b, c⟩ := t
  have hD := (crossed_hits hm h0 h1 h).2.2
  obtain ⟨d, hd⟩ := hasTri_iff.1 h.1
  have pa := placed_tet hm hd (v := a) (by simp [list4])
  have pb := placed_tet hm hd (v := b) (by simp [list4])
  have pc := placed_tet hm hd (v := c) (by simp [list4])
  obtain ⟨x, hx⟩ := orient_some pa pb pc (solid_placed hm h0)
  obtain ⟨y, hy⟩ := orient_some pa pb pc (solid_placed hm h1)
  have e := hs.2.2.plane (d := a)
  rw [F_pt] at e
  rw [show F (homv m) (a, b, c, a) (homv m v0) = x from orient_D hx,
    show F (homv m) (a, b, c, a) (homv m v1) = y from orient_D hy] at e
  rw [orient_D hx] at hD
  refine ⟨x, y, hx, hy, fun hxy => hD ?_, e⟩
  rw [← hxy] at e
  linear_combination e

/-- There are no more different triangles than walkers. -/
theorem tris_le {P : Type} {m : Mesh P V T} (hm : Consistent m) {n : Nat} (hn : m.numTets = some n) {l : List V3}
    (hd : l.Nodup) (hl : ∀ t ∈ l, HasTri m t) : l.length ≤ 12 * n := by
  classical
  have hex : ∀ t ∈ l, ∃ w, m.tri w = some t := hl
  haveI : Nonempty Walker := ⟨⟨0, 0⟩⟩
  choose! f hf using hex
  have h1 : (l.toFinset).card ≤ (m.tets.keys.toFinset ×ˢ (Finset.univ : Finset Code)).card := by
    refine Finset.card_le_card_of_injOn (fun t => ((f t).tet, (f t).edge)) ?_ ?_
    · intro t ht
      have := hf t (by simpa using ht)
      obtain ⟨t', k1, -⟩ := Mesh.tri_iff.1 this
      simp only [Finset.coe_product, Set.mem_prod, List.coe_toFinset, Set.mem_setOf_eq, Finset.coe_univ, Set.mem_univ, and_true]
      exact IdMap.mem_keys.2 (by rw [k1]; rfl)
    · intro t ht t' ht' he
      have k1 := hf t (by simpa using ht)
      have k2 := hf t' (by simpa using ht')
      have : f t = f t' := by
        simp only [Prod.mk.injEq] at he
        cases h1 : f t
        cases h2 : f t'
        rw [h1, h2] at he
        simp only at he
        rw [he.1, he.2]
      rw [this, k2] at k1
      exact (Option.some.inj k1).symm
  rw [List.toFinset_card_of_nodup hd, Finset.card_product] at h1
  have h2 := IdMapSpec.length_keys hm.toT.stored.2.2
  have h3 := hm.toT.stored.2.2.len_eq
  rw [Mesh.numTets, h3] at hn
  have h4 := Option.some.inj hn
  have h5 := List.toFinset_card_le m.tets.keys
  have h6 : (Finset.univ : Finset Code).card = 12 := rfl
  rw [h6] at h1
  omega

/-- What the search gives in general position. -/
theorem search_all (hm : Consistent m) (ht : Tiles m) (hf : NoFlat m) (h0 : Solid m v0) (h1 : Solid m v1) (hv : v0 ≠ v1)
    {n steps : Nat} (hn : m.numTets = some n) (hsteps : 12 * n ≤ steps) :
    ∃ l : List V3, Settles (fun fuel => (m.edgeIntersections fuel steps v0 v1).map (·.map fun x => x.2.other)) (some (l.map .tri)) ∧
      InTheWay m v0 v1 l ∧ (l = [] ↔ HasEdge m v0 v1) := by
  have hg := hf.generic hm ht
  obtain ⟨r, hr, hi⟩ := edgeIntersections_does hm steps v0 v1
  have irr : ∀ {l : List V3}, (l.Pairwise fun g' g'' => ∀ s s', HitsAt (homv m) v0 v1 g' s → HitsAt (homv m) v0 v1 g'' s' → s < s') →
      (∀ g' ∈ l, ∃ t, HitsAt (homv m) v0 v1 g' t) → l.Pairwise fun t t' => ¬ SameThree t t' := by
    intro l hp hh
    refine hp.imp_of_mem fun {t t'} h2 h3 h4 hs => ?_
    obtain ⟨s, hs1⟩ := hh _ h2
    exact absurd (h4 s s hs1 (hs1.six3 (sameThree_six3.1 hs))) (lt_irrefl _)
  cases r with
  | none =>
    exfalso
    rcases hi with hi | hi | ⟨l, hl, hlen⟩
    · exact hi h0
    · exact hi (solid_placed hm h1)
    · obtain ⟨l', rfl⟩ := only_tris hm hf hv l hl.crossed
      cases l' with
      | nil => simp at hlen
      | cons g l' =>
        obtain ⟨-, -, hh, hp⟩ := hl.line hm ht hf h0 h1
        have hnd : (g :: l').Nodup := (irr hp hh).imp fun hs e => hs (by rw [e]; exact List.Perm.refl _)
        have := tris_le hm hn hnd fun t ht' => (crossed_hits hm h0 h1 (hl.crossed (.tri t) (List.mem_map_of_mem ht'))).1
        simp only [List.length_map] at hlen
        omega
  | some l =>
    obtain ⟨hl, he, hend⟩ := hi
    obtain ⟨l', rfl⟩ := only_tris hm hf hv l hl.crossed
    have noEdge := no_edge_crossed hm hf hv
    cases l' with
    | nil =>
      have hE : HasEdge m v0 v1 := by
        rcases he rfl with ⟨a, b, c, k1, k2⟩ | k
        · simp only [List.mem_cons, List.not_mem_nil, or_false] at k2
          rw [hm.toT.hasEdge_tet]
          rcases k2 with rfl | rfl | rfl
          · exact ⟨_, _, k1⟩
          · exact ⟨c, a, HasTet.same k1 (mem_twelve.1 (by simp [twelve]))⟩
          · exact ⟨a, b, HasTet.same k1 (mem_twelve.1 (by simp [twelve]))⟩
        · by_contra hc
          rw [hm.toT.hasEdge_tet] at hc
          obtain ⟨a, b, c, t, k1, k2⟩ := hg.first (solid_wt h0) (solid_wt h1) hv (inMesh_last h0.1) (inMesh_last h1.1)
            fun x y hxy => hc ⟨x, y, hxy⟩
          exact (k (ht.star hm v0) c b a (HasTet.same k1 (mem_twelve.1 (by simp [twelve])))).1
            (hits_crossed hm h0 h1 (hasTri_iff.2 ⟨_, k1⟩) k2 (hg.fan.pos _ k1).ne')
      refine ⟨[], hr, ⟨by simp, fun t hc => ?_, noEdge, by simp, by simp⟩, by simp [hE]⟩
      obtain ⟨x, y, hxy⟩ := hm.toT.hasEdge_tet.1 hE
      obtain ⟨k1, ⟨s, k2⟩, -⟩ := crossed_hits hm h0 h1 hc
      obtain ⟨d, k3⟩ := hasTri_iff.1 k1
      exact (hg.edge_no_hit (solid_wt h0) (solid_wt h1) hxy k3 k2).elim
    | cons g l' =>
      obtain ⟨hs, hc, hh, hp⟩ := hl.line hm ht hf h0 h1
      have hcr : ∀ t ∈ g :: l', CrossedBy m v0 v1 (.tri t) := fun t ht' => hl.crossed (.tri t) (List.mem_map_of_mem ht')
      refine ⟨g :: l', hr, ⟨hcr, fun t hct => ?_, noEdge, irr hp hh, ?_⟩, ?_⟩
      · obtain ⟨k1, ⟨s, k2⟩, -⟩ := crossed_hits hm h0 h1 hct
        obtain ⟨d, k3⟩ := hasTri_iff.1 k1
        have hd : ∀ g', (g :: l').getLast? = some g' → Done (homv m) (HasTet m) v0 v1 g' := by
          intro g' hg'
          obtain ⟨l2, e2⟩ := List.getLast?_eq_some_iff.1 hg'
          exact done_of hm hf ht h0 h1 (hend (l2.map .tri) (.tri g') (by rw [e2]; simp))
        obtain ⟨g', k4, k5⟩ := (hg.along (solid_wt h0) (solid_wt h1) (solid_placed hm h0) (inMesh_last h1.1) hs hc hh).1 hd
          _ _ _ _ s k3 k2
        exact ⟨g', k4, (sameThree_six3.2 k5).symm⟩
      · refine hp.imp_of_mem fun {t t'} h2 h3 h4 => ?_
        obtain ⟨s, k1⟩ := hh t h2
        obtain ⟨s', k2⟩ := hh t' h3
        exact ⟨s, s', hits_meets hm h0 h1 (hcr t h2) k1, hits_meets hm h0 h1 (hcr t' h3) k2, h4 s s' k1 k2⟩
      · refine ⟨fun h => by simp at h, fun hE => ?_⟩
        obtain ⟨x, y, hxy⟩ := hm.toT.hasEdge_tet.1 hE
        obtain ⟨k1, ⟨s, k2⟩, -⟩ := crossed_hits hm h0 h1 (hcr g List.mem_cons_self)
        obtain ⟨d, k3⟩ := hasTri_iff.1 k1
        exact (hg.edge_no_hit (solid_wt h0) (solid_wt h1) hxy k3 k2).elim

end Tet
