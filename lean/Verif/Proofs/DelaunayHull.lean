import Verif.Proofs.HullCavity
import Verif.Proofs.DelaunayAdd
import Verif.Spec.DelaunayMesh
import Verif.Props.Delaunay

/-!
# Delaunay meshes are those that are convex when lifted
-/

namespace Tet
open Spec Vec5
variable {V T : Type} {K H : Type} [Field K] [LinearOrder K] [IsStrictOrderedRing K]
variable {m m' : Mesh (Pt K) V T} {id : VId} {E : List TId} {B : List Walker}

/-- The lifted position of a vertex. -/
def pvec (pos : VId → Option (Pt K)) (v : VId) : Vec5 K :=
  if v = GHOST then liftGhost else ((pos v).map lift).getD 0

/-- The vertices of the mesh. -/
def InM (m : Mesh (Pt K) V T) (v : VId) : Prop := InMesh m v ∨ v = GHOST

theorem pvec_ghost (pos : VId → Option (Pt K)) : pvec pos GHOST = liftGhost := if_pos rfl

theorem At.position {v : VId} {p : Pt K} (h : At m v p) : m.position v = some p := by
  obtain ⟨-, x, h1, h2⟩ := h
  rw [Mesh.position, h1, Option.map_some, h2]

theorem pvec_at {v : VId} {p : Pt K} (h : At m v p) : pvec m.position v = lift p := by
  rw [pvec, if_neg h.1, At.position h]
  rfl

theorem exists_at (hm : Consistent m) {v : VId} (h : InM m v) (hv : v ≠ GHOST) : ∃ p, At m v p := by
  rcases h with ⟨w, hw⟩ | h
  · rcases hm.vertexLive w v hw with h | ⟨x, hx, -⟩
    · exact absurd h hv
    · exact ⟨x.position, hv, x, hx, rfl⟩
  · exact absurd h hv

theorem ghost0 (b c d e : Pt K) : det liftGhost (lift b) (lift c) (lift d) (lift e) = -orient3d d c b e := by
  simp only [Vec5.det, Vec5.det4, Vec5.det3, lift_apply, liftGhost_apply, orient3d, Pt.norm2, Pt.dot, Pt.sub,
    Pt.cross]; ring

theorem ghost1 (b c d e : Pt K) : det (lift b) liftGhost (lift c) (lift d) (lift e) = -orient3d c d b e := by
  simp only [Vec5.det, Vec5.det4, Vec5.det3, lift_apply, liftGhost_apply, orient3d, Pt.norm2, Pt.dot, Pt.sub,
    Pt.cross]; ring

theorem ghost2 (b c d e : Pt K) : det (lift b) (lift c) liftGhost (lift d) (lift e) = -orient3d c b d e := by
  simp only [Vec5.det, Vec5.det4, Vec5.det3, lift_apply, liftGhost_apply, orient3d, Pt.norm2, Pt.dot, Pt.sub,
    Pt.cross]; ring

theorem ghost3 (b c d e : Pt K) : det (lift b) (lift c) (lift d) liftGhost (lift e) = -orient3d b c d e := by
  simp only [Vec5.det, Vec5.det4, Vec5.det3, lift_apply, liftGhost_apply, orient3d, Pt.norm2, Pt.dot, Pt.sub,
    Pt.cross]; ring

/-- The sphere test of the code says on which side the lifted vertex is. -/
theorem sphereSign_side {pos : VId → Option (Pt K)} {a b c d : VId} (hn : [a, b, c, d].Nodup)
    (hp : ∀ v ∈ [a, b, c, d], v ≠ GHOST → ∃ p, pos v = some p) {p : Pt K} (hid : pos id = some p) (hg : id ≠ GHOST) :
    sphereSign pos id (a, b, c, d) = -side (pvec pos) (a, b, c, d) (pvec pos id) := by
  simp only [List.nodup_cons, List.mem_cons, List.not_mem_nil, or_false, not_or, not_false_eq_true, List.nodup_nil,
    and_true] at hn
  obtain ⟨⟨n1, n2, n3⟩, ⟨n4, n5⟩, n6⟩ := hn
  have hv : ∀ {v q}, v ≠ GHOST → pos v = some q → pvec pos v = lift q := by
    intro v q h1 h2
    rw [pvec, if_neg h1, h2]; rfl
  have ha := hp a (by simp)
  have hb := hp b (by simp)
  have hc := hp c (by simp)
  have hd := hp d (by simp)
  simp only [sphereSign, side, hv hg hid, hid]
  by_cases ga : a = GHOST
  · subst ga
    obtain ⟨pb, hb⟩ := hb (Ne.symm n1)
    obtain ⟨pc, hc⟩ := hc (Ne.symm n2)
    obtain ⟨pd, hd⟩ := hd (Ne.symm n3)
    simp [hv (Ne.symm n1) hb, hv (Ne.symm n2) hc, hv (Ne.symm n3) hd, pvec_ghost, ghost0, Ne.symm n1, Ne.symm n2,
      Ne.symm n3, hb, hc, hd]
  obtain ⟨pa, ha⟩ := ha ga
  by_cases gb : b = GHOST
  · subst gb
    obtain ⟨pc, hc⟩ := hc (Ne.symm n4)
    obtain ⟨pd, hd⟩ := hd (Ne.symm n5)
    simp [hv ga ha, hv (Ne.symm n4) hc, hv (Ne.symm n5) hd, pvec_ghost, ghost1, ga, Ne.symm n4,
      Ne.symm n5, ha, hc, hd]
  obtain ⟨pb, hb⟩ := hb gb
  by_cases gc : c = GHOST
  · subst gc
    obtain ⟨pd, hd⟩ := hd (Ne.symm n6)
    simp [hv ga ha, hv gb hb, hv (Ne.symm n6) hd, pvec_ghost, ghost2, ga, gb,
      Ne.symm n6, ha, hb, hd]
  obtain ⟨pc, hc⟩ := hc gc
  by_cases gd : d = GHOST
  · subst gd
    simp [hv ga ha, hv gb hb, hv gc hc, pvec_ghost, ghost3, ga, gb, gc, ha, hb, hc]
  obtain ⟨pd, hd⟩ := hd gd
  simp [hv ga ha, hv gb hb, hv gc hc, hv gd hd, det_solid, ga, gb, gc, gd, ha, hb, hc, hd]

theorem tet_positions (hm : Consistent m) {w : Walker} {q : V4} (h : m.tet4 w = some q) :
    ∀ v ∈ [q.1, q.2.1, q.2.2.1, q.2.2.2], v ≠ GHOST → ∃ p, At m v p := by
  intro v hv hg
  have := mem_vertices (S := InM m) hm (fun w v h => .inl ⟨w, h⟩) h
  simp only [List.mem_cons, List.not_mem_nil, or_false] at hv
  rcases hv with rfl | rfl | rfl | rfl
  · exact exists_at hm this.1 hg
  · exact exists_at hm this.2.1 hg
  · exact exists_at hm this.2.2.1 hg
  · exact exists_at hm this.2.2.2 hg

/-- A tet with the ghost vertex can be written with it last. -/
theorem ghost_last {w : Walker} {a b c d : VId} (h : m.tet4 w = some (a, b, c, d)) (hg : GHOST ∈ [a, b, c, d]) :
    ∃ w' x y z, w'.tet = w.tet ∧ m.tet4 w' = some (x, y, z, GHOST) ∧
      ∀ v, v ∈ [a, b, c, d] ↔ v ∈ [x, y, z, GHOST] := by
  obtain ⟨t1, t2, t3, t4, -⟩ := tet4_turns h
  have t5 := (tet4_turns t3).1
  simp only [List.mem_cons, List.not_mem_nil, or_false] at hg
  rcases hg with rfl | rfl | rfl | rfl
  · exact ⟨w.twin.nve, _, _, _, rfl, t5, fun v => by simp only [List.mem_cons, List.not_mem_nil, or_false]; tauto⟩
  · exact ⟨w.nve, _, _, _, rfl, t1, fun v => by simp only [List.mem_cons, List.not_mem_nil, or_false]; tauto⟩
  · exact ⟨w.pve, _, _, _, rfl, t2, fun v => by simp only [List.mem_cons, List.not_mem_nil, or_false]; tauto⟩
  · exact ⟨w, _, _, _, rfl, h, fun v => Iff.rfl⟩

theorem sphere_of_pos {a b c d e : Pt K} (hp : 0 < orient3d a b c d) :
    inSphere a b c d e < 0 ↔ ∀ o r2, OnSphere o r2 [a, b, c, d] → r2 < (e.sub o).norm2 := by
  obtain ⟨o, r2, h⟩ := exists_sphere hp.ne'
  constructor
  · intro hs o r2 h
    rw [inSphere_eq h] at hs
    have := neg_of_mul_neg_right hs hp.le
    linarith
  · intro hs
    rw [inSphere_eq h]
    have := hs o r2 h
    exact mul_neg_of_pos_of_neg hp (by linarith)

/-- Besides a solid tet there is the ghost. -/
theorem five_of_solid (hm : Consistent m) (hs : ∃ w a b c d, m.tet4 w = some (a, b, c, d) ∧ GHOST ∉ [a, b, c, d]) (q : V4) :
    ∃ v, InM m v ∧ v ∉ [q.1, q.2.1, q.2.2.1, q.2.2.2] := by
  obtain ⟨x, y, z, u⟩ := q
  obtain ⟨w, a, b, c, d, h, hg⟩ := hs
  have hn := hm.distinct _ _ _ _ _ h
  have hS := mem_vertices (S := InM m) hm (fun w v h => .inl ⟨w, h⟩) h
  by_contra hno
  push Not at hno
  have hsub : [GHOST, a, b, c, d] ⊆ [x, y, z, u] := by
    intro v hv
    apply hno
    simp only [List.mem_cons, List.not_mem_nil, or_false] at hv
    rcases hv with rfl | rfl | rfl | rfl | rfl
    · exact .inr rfl
    · exact hS.1
    · exact hS.2.1
    · exact hS.2.2.1
    · exact hS.2.2.2
  have hnd : [GHOST, a, b, c, d].Nodup := List.nodup_cons.2 ⟨hg, hn⟩
  have := (List.subperm_of_subset hnd hsub).length_le
  simp at this

theorem Spec.Delaunay.toHull (hd : Delaunay m) (hm : Consistent m) : Hull m (InM m) (pvec m.position) where
  cons := hm
  mem := fun w v h => .inl ⟨w, h⟩
  five := by
    obtain ⟨w, a, b, c, d, pa, pb, pc, pd, h, ha, hb, hc, hd⟩ := hd.solid
    exact five_of_solid hm ⟨w, a, b, c, d, h, by simp [ha.1.symm, hb.1.symm, hc.1.symm, hd.1.symm]⟩
  pos := by
    rintro w ⟨a, b, c, d⟩ v hq hv hn
    by_cases hg : GHOST ∈ [a, b, c, d]
    · obtain ⟨w', x, y, z, h1, h2, h3⟩ := ghost_last hq hg
      rw [side_same _ (tet4_same h1 h2 hq)]
      have hnd := hm.distinct _ _ _ _ _ h2
      simp only [List.nodup_cons, List.mem_cons, List.not_mem_nil, or_false, not_or, not_false_eq_true, List.nodup_nil,
        and_true] at hnd
      obtain ⟨px, hx⟩ := tet_positions hm h2 x (by simp) hnd.1.2.2
      obtain ⟨py, hy⟩ := tet_positions hm h2 y (by simp) hnd.2.1.2
      obtain ⟨pz, hz⟩ := tet_positions hm h2 z (by simp) hnd.2.2
      have hn' : v ∉ [x, y, z, GHOST] := fun h => hn ((h3 v).2 h)
      simp only [List.mem_cons, List.not_mem_nil, or_false, not_or] at hn'
      obtain ⟨pv, hpv⟩ := exists_at hm hv hn'.2.2.2
      simp only [side, pvec_at hx, pvec_at hy, pvec_at hz, pvec_at hpv, pvec_ghost, ghost3, Left.neg_pos_iff]
      exact hd.hull _ _ _ _ _ _ _ h2 hx hy hz v pv (hv.resolve_right hn'.2.2.2) hpv (by
        simp only [List.mem_cons, List.not_mem_nil, or_false, not_or]; tauto)
    · simp only [List.mem_cons, List.not_mem_nil, or_false, not_or] at hg
      obtain ⟨pa, ha⟩ := tet_positions hm hq a (by simp) (Ne.symm hg.1)
      obtain ⟨pb, hb⟩ := tet_positions hm hq b (by simp) (Ne.symm hg.2.1)
      obtain ⟨pc, hc⟩ := tet_positions hm hq c (by simp) (Ne.symm hg.2.2.1)
      obtain ⟨pd, hpd⟩ := tet_positions hm hq d (by simp) (Ne.symm hg.2.2.2)
      have hpos := hd.positive _ _ _ _ _ _ _ _ _ hq ha hb hc hpd
      by_cases hvg : v = GHOST
      · subst hvg
        simp only [side, pvec_at ha, pvec_at hb, pvec_at hc, pvec_at hpd, pvec_ghost, det_orient]
        exact hpos
      · obtain ⟨pv, hpv⟩ := exists_at hm hv hvg
        simp only [side, pvec_at ha, pvec_at hb, pvec_at hc, pvec_at hpd, pvec_at hpv, det_solid, Left.neg_pos_iff]
        exact (sphere_of_pos hpos).2 (hd.empty _ _ _ _ _ _ _ _ _ hq ha hb hc hpd v pv (hv.resolve_right hvg) hpv hn)

theorem Hull.toDelaunay (hu : Hull m (InM m) (pvec m.position)) (hs : ∃ w a b c d, m.tet4 w = some (a, b, c, d) ∧ GHOST ∉ [a, b, c, d]) :
    Delaunay m := by
  have hpos : ∀ w a b c d pa pb pc pd, m.tet4 w = some (a, b, c, d) → At m a pa → At m b pb → At m c pc → At m d pd →
      0 < orient3d pa pb pc pd := by
    intro w a b c d pa pb pc pd hq ha hb hc hd
    have := hu.pos w _ GHOST hq (.inr rfl) (by
      simp only [List.mem_cons, List.not_mem_nil, or_false, not_or]
      exact ⟨ha.1.symm, hb.1.symm, hc.1.symm, hd.1.symm⟩)
    simpa only [side, pvec_at ha, pvec_at hb, pvec_at hc, pvec_at hd, pvec_ghost, det_orient] using this
  refine ⟨?_, hpos, ?_, ?_⟩
  · obtain ⟨w, a, b, c, d, hq, hg⟩ := hs
    simp only [List.mem_cons, List.not_mem_nil, or_false, not_or] at hg
    obtain ⟨pa, ha⟩ := tet_positions hu.cons hq a (by simp) (Ne.symm hg.1)
    obtain ⟨pb, hb⟩ := tet_positions hu.cons hq b (by simp) (Ne.symm hg.2.1)
    obtain ⟨pc, hc⟩ := tet_positions hu.cons hq c (by simp) (Ne.symm hg.2.2.1)
    obtain ⟨pd, hpd⟩ := tet_positions hu.cons hq d (by simp) (Ne.symm hg.2.2.2)
    exact ⟨w, a, b, c, d, pa, pb, pc, pd, hq, ha, hb, hc, hpd⟩
  · intro w a b c d pa pb pc pd hq ha hb hc hd v pv hv hpv hn
    rw [← sphere_of_pos (hpos _ _ _ _ _ _ _ _ _ hq ha hb hc hd)]
    have := hu.pos w _ v hq (.inl hv) hn
    simpa only [side, pvec_at ha, pvec_at hb, pvec_at hc, pvec_at hd, pvec_at hpv, det_solid, Left.neg_pos_iff] using this
  · intro w a b c pa pb pc hq ha hb hc v pv hv hpv hn
    have := hu.pos w _ v hq (.inl hv) (by
      simp only [List.mem_cons, List.not_mem_nil, or_false, not_or] at hn ⊢
      exact ⟨hn.1, hn.2.1, hn.2.2, hpv.1⟩)
    simpa only [side, pvec_at ha, pvec_at hb, pvec_at hc, pvec_at hpv, pvec_ghost, ghost3, Left.neg_pos_iff] using this

end Tet
