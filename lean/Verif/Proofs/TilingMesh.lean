import Verif.Proofs.FanCount
import Verif.Proofs.Tiling
import Verif.Props.DelaunayBuild

/-!
# Consistent meshes with positive tets cover all points equally often
-/

namespace Tet
open Spec Vec4
variable {K V T : Type} [Field K] [LinearOrder K] [IsStrictOrderedRing K]

/-- The tet with this id. -/
def tetAt {P : Type} (m : Mesh P V T) (k : TId) : V4 := (m.tet4 (Mesh.walkerFromTetId k)).getD (0, 0, 0, 0)

theorem tet4_write {P : Type} {m : Mesh P V T} {w : Walker} {p q : V4} (h : m.tet4 w = some p) (hs : SameTet p q) :
    ∃ w', w'.tet = w.tet ∧ m.tet4 w' = some q := by
  obtain ⟨t, ht, rfl⟩ := Mesh.tet4_iff.1 h
  obtain ⟨e, he⟩ := (evenRearr_iff _ _).1 (EvenRearr.trans (t.rearr_tet w.edge) hs)
  refine ⟨⟨w.tet, e⟩, rfl, Mesh.tet4_iff.2 ⟨t, ht, quad_inj fun j => ?_⟩⟩
  rw [Tet.quad_tet, he]

/-- The tets of a consistent mesh are glued together. -/
theorem Spec.Consistent.glued {P : Type} {m : Mesh P V T} (hm : Consistent m) :
    ∃ ids : Finset Nat, (∀ k, k ∈ ids ↔ (m.tets.get k).isSome) ∧ Tet.Glued ids (tetAt m) ∧ Shown ids (tetAt m) = HasTet m ∧
      ∀ k, ∀ q, m.tet4 (Mesh.walkerFromTetId k) = some q ↔ k ∈ ids ∧ tetAt m k = q := by
  obtain ⟨ids, -, hids⟩ := IdMap.keys_list hm.toT.stored.2.2
  have h4 : ∀ k, ∀ q, m.tet4 (Mesh.walkerFromTetId k) = some q ↔ k ∈ ids ∧ tetAt m k = q := by
    intro k q
    rw [hids, Option.isSome_iff_exists]
    constructor
    · intro h
      obtain ⟨t, ht, -⟩ := Mesh.tet4_iff.1 h
      exact ⟨⟨t, ht⟩, by unfold tetAt; rw [h]; rfl⟩
    · rintro ⟨⟨t, ht⟩, rfl⟩
      have : m.tet4 (Mesh.walkerFromTetId k) = some (t.tet 3) := Mesh.tet4_iff.2 ⟨t, ht, rfl⟩
      unfold tetAt
      rw [this]
      rfl
  have hat : ∀ {w : Walker} {q : V4}, m.tet4 w = some q → w.tet ∈ ids ∧ SameTet (tetAt m w.tet) q := by
    intro w q h
    obtain ⟨t, ht, -⟩ := Mesh.tet4_iff.1 h
    have hk : w.tet ∈ ids := (hids _).2 (by rw [ht]; rfl)
    exact ⟨hk, tet4_same (w := Mesh.walkerFromTetId w.tet) (w' := w) rfl ((h4 _ _).2 ⟨hk, rfl⟩) h⟩
  have hof : ∀ {k : Nat} {q : V4}, k ∈ ids → SameTet (tetAt m k) q → ∃ w, w.tet = k ∧ m.tet4 w = some q := by
    intro k q hk hs
    exact tet4_write ((h4 _ _).2 ⟨hk, rfl⟩) hs
  refine ⟨ids, hids, ⟨?_, ?_⟩, ?_, h4⟩
  · intro k hk a b c d hs
    obtain ⟨w, -, hw⟩ := hof hk hs
    obtain ⟨w', z, -, -, hz⟩ := toAcross hm hw
    obtain ⟨h1, h2⟩ := hat hz
    exact ⟨_, h1, z, h2⟩
  · intro k hk k' hk' a b c d d' hs hs'
    obtain ⟨w, rfl, hw⟩ := hof hk hs
    obtain ⟨w', rfl, hw'⟩ := hof hk' hs'
    rcases hm.triUnique _ _ _ _ (tet4_parts hw).2.2.2 (tet4_parts hw').2.2.2 (by left; rfl) with r | r | r <;> rw [r] <;> rfl
  · funext q
    refine propext ⟨?_, ?_⟩
    · rintro ⟨k, hk, hs⟩
      obtain ⟨w, -, hw⟩ := hof hk hs
      exact ⟨w, hw⟩
    · rintro ⟨w, hw⟩
      exact ⟨w.tet, hat hw⟩

theorem Spec.AllPositive.pos {m : Mesh (Pt K) V T} (hp : AllPositive m) {q : V4} (h : HasTet m q) : 0 < D (homv m) q := by
  obtain ⟨a, b, c, d⟩ := q
  obtain ⟨s, h1, h2⟩ := hp a b c d h
  rwa [orient_D h1]

theorem layers_eq {m : Mesh (Pt K) V T} (hm : Consistent m) {ids : Finset Nat}
    (h4 : ∀ k, ∀ q, m.tet4 (Mesh.walkerFromTetId k) = some q ↔ k ∈ ids ∧ tetAt m k = q) (p : Pt K) :
    layers m p = (holders (homv m) ids (tetAt m) (hom p)).card := by
  classical
  rw [layers, ← Set.ncard_coe_finset]
  congr 1
  ext k
  simp only [holders, Set.mem_setOf_eq, Finset.coe_filter]
  constructor
  · rintro ⟨q, h1, h2⟩
    obtain ⟨h3, rfl⟩ := (h4 k q).1 h1
    exact ⟨h3, (hm.toT.placed.within ⟨_, h1⟩ p).1 h2⟩
  · rintro ⟨h1, h2⟩
    have h3 := (h4 k _).2 ⟨h1, rfl⟩
    exact ⟨_, h3, (hm.toT.placed.within ⟨_, h3⟩ p).2 h2⟩

/-- All points are in equally many tets. -/
theorem layers_const {m : Mesh (Pt K) V T} (hm : Consistent m) (hp : AllPositive m) {p p' : Pt K} (ho : OffPlanes m p)
    (ho' : OffPlanes m p') : layers m p = layers m p' := by
  obtain ⟨ids, -, hg, hs, h4⟩ := hm.glued
  rw [layers_eq hm h4, layers_eq hm h4]
  refine count_const hg (fun k hk => hp.pos ⟨_, (h4 k _).2 ⟨hk, rfl⟩⟩) ?_ ?_
  · rw [hs]; exact (hm.toT.placed.offPlanes p).1 ho
  · rw [hs]; exact (hm.toT.placed.offPlanes p').1 ho'

/-- One point in exactly one tet is enough. -/
theorem tiles_of_layer {m : Mesh (Pt K) V T} (hm : Consistent m) (hp : AllPositive m) {p : Pt K} (ho : OffPlanes m p)
    (h1 : layers m p = 1) : Tiles m := by
  obtain ⟨ids, -, hg, hs, h4⟩ := hm.glued
  rw [layers_eq hm h4] at h1
  rw [tiles_iff hm.toT.placed, ← hs]
  refine hg.fan (fun k hk => hp.pos ⟨_, (h4 k _).2 ⟨hk, rfl⟩⟩) ?_ h1 _
  rw [hs]
  exact (hm.toT.placed.offPlanes p).1 ho

/-- In a tiling all points are in exactly one tet. -/
theorem Spec.Tiles.layer {m : Mesh (Pt K) V T} (hm : Consistent m) (ht : Tiles m) {p : Pt K} (ho : OffPlanes m p) :
    layers m p = 1 := by
  obtain ⟨q, ⟨w, hw⟩, h2⟩ := ht.covered p ho
  obtain ⟨ids, hids, hg, hs, h4⟩ := hm.glued
  rw [layers, Set.ncard_eq_one]
  refine ⟨w.tet, ?_⟩
  have hk : ∀ {w : Walker} {q : V4}, m.tet4 w = some q → ∃ q', m.tet4 (Mesh.walkerFromTetId w.tet) = some q' ∧ SameTet q q' := by
    intro w q hw
    obtain ⟨t, ht, -⟩ := Mesh.tet4_iff.1 hw
    have : m.tet4 (Mesh.walkerFromTetId w.tet) = some (t.tet 3) := Mesh.tet4_iff.2 ⟨t, ht, rfl⟩
    exact ⟨_, this, tet4_same (w := w) (w' := Mesh.walkerFromTetId w.tet) rfl hw this⟩
  ext k
  simp only [Set.mem_setOf_eq, Set.mem_singleton_iff]
  constructor
  · rintro ⟨q', h3, h5⟩
    have h6 := ht.once p ho q q' ⟨w, hw⟩ ⟨_, h3⟩ h2 h5
    obtain ⟨q1, h7, h8⟩ := hk hw
    obtain ⟨i1, i2⟩ := (h4 _ _).1 h3
    obtain ⟨j1, j2⟩ := (h4 _ _).1 h7
    obtain ⟨a, b, c, d⟩ := q
    refine hg.uniq k i1 w.tet j1 a b c d d ?_ ?_
    · rw [i2]; exact SameTet.symm' h6
    · rw [j2]; exact SameTet.symm' h8
  · rintro rfl
    obtain ⟨q1, h7, h8⟩ := hk hw
    exact ⟨q1, h7, fun a b c d h9 => h2 a b c d (SameTet.trans' h8 h9)⟩

/-- There are points in no plane inside any solid tet. -/
theorem exists_within {m : Mesh (Pt K) V T} (hm : Consistent m) (hp : AllPositive m) {q : V4} (hq : HasTet m q)
    (hg : GHOST ∉ [q.1, q.2.1, q.2.2.1, q.2.2.2]) : ∃ p, OffPlanes m p ∧ Within m q p := by
  obtain ⟨a, b, c, d⟩ := q
  simp only [List.mem_cons, List.not_mem_nil, or_false, not_or] at hg
  have h0 : 0 < det (homv m a) (homv m b) (homv m c) (homv m d) := hp.pos hq
  have h1 := homv_solids m
  obtain ⟨x, hx, hG⟩ := near_free (G := [F (homv m) (a, b, c, d), F (homv m) (a, d, b, c), F (homv m) (a, c, d, b), F (homv m) (b, d, c, a), last4])
    (y := homv m a + homv m b + homv m c + homv m d) (z := 0) (tets_finite m) (fun q hq => hp.pos hq) (by
      intro g hg'
      left
      simp only [List.mem_cons, List.not_mem_nil, or_false] at hg'
      rcases hg' with rfl | rfl | rfl | rfl | rfl
      · simpa [F, fun3_apply, det_add, self0, self1, self2] using h0
      · simp only [F, fun3_apply, det_add, self0, self1, self2, zero_add, add_zero]
        rw [show det (homv m a) (homv m d) (homv m b) (homv m c) = det (homv m a) (homv m b) (homv m c) (homv m d) by
          simp only [det, det3]; ring]
        exact h0
      · simp only [F, fun3_apply, det_add, self0, self1, self2, zero_add, add_zero]
        rw [show det (homv m a) (homv m c) (homv m d) (homv m b) = det (homv m a) (homv m b) (homv m c) (homv m d) by
          simp only [det, det3]; ring]
        exact h0
      · simp only [F, fun3_apply, det_add, self0, self1, self2, zero_add, add_zero]
        rw [show det (homv m b) (homv m d) (homv m c) (homv m a) = det (homv m a) (homv m b) (homv m c) (homv m d) by
          simp only [det, det3]; ring]
        exact h0
      · rw [map_add, map_add, map_add]
        have i1 := h1 a (Ne.symm hg.1)
        have i2 := h1 b (Ne.symm hg.2.1)
        have i3 := h1 c (Ne.symm hg.2.2.1)
        have i4 := h1 d (Ne.symm hg.2.2.2)
        linarith)
  have hx3 : 0 < x 3 := hG last4 (by simp)
  obtain ⟨p, hpx⟩ : ∃ p : Pt K, x = x 3 • hom p := by
    refine ⟨⟨x 0 / x 3, x 1 / x 3, x 2 / x 3⟩, ?_⟩
    funext i
    fin_cases i <;> simp [hom, mul_div_cancel₀, hx3.ne']
  have hF : ∀ q, F (homv m) q x = x 3 * F (homv m) q (hom p) := by
    intro q
    conv_lhs => rw [hpx]
    rw [map_smul, smul_eq_mul]
  refine ⟨p, (hm.toT.placed.offPlanes p).2 fun q hq h0 => hx q hq (by rw [hF, h0, mul_zero]), ?_⟩
  rw [hm.toT.placed.within hq]
  have g : ∀ q ∈ [(a, b, c, d), (a, d, b, c), (a, c, d, b), (b, d, c, a)], 0 < F (homv m) q (hom p) := by
    intro q hq
    have : 0 < F (homv m) q x := by
      simp only [List.mem_cons, List.not_mem_nil, or_false] at hq
      rcases hq with rfl | rfl | rfl | rfl <;> exact hG _ (by simp)
    rw [hF] at this
    exact (mul_pos_iff_of_pos_left hx3).1 this
  exact ⟨g (a, b, c, d) (by simp), g (a, d, b, c) (by simp), g (a, c, d, b) (by simp), g (b, d, c, a) (by simp)⟩

/-- Everything inside a solid tet is behind the triangles of the hull. -/
theorem Spec.Delaunay.behind {m : Mesh (Pt K) V T} (hd : Delaunay m) {w : Walker} {a b c : VId}
    {pa pb pc : Pt K} (hq : m.tet4 w = some (a, b, c, GHOST)) (ha : At m a pa) (hb : At m b pb) (hc : At m c pc)
    {l : List (K × Pt K)} (hl : ∀ e ∈ l, 0 ≤ e.1 ∧ ∃ v, InMesh m v ∧ At m v e.2) (hs : (l.map (·.1)).sum = 1) :
    orient3d pa pb pc (comb l) ≤ 0 := by
  rw [orient_comb, hs, sub_self, zero_mul, add_zero]
  refine sum_nonpos_list fun y hy => ?_
  obtain ⟨e, he, rfl⟩ := List.mem_map.1 hy
  obtain ⟨h1, v, hv, hpv⟩ := hl e he
  refine mul_nonpos_of_nonneg_of_nonpos h1 ?_
  by_cases hn : v ∈ [a, b, c]
  · refine le_of_eq ?_
    have key : ∀ {u : VId} {q : Pt K}, At m u q → v = u → e.2 = q := by
      rintro u q hu rfl
      have := At.position hu
      rw [At.position hpv] at this
      exact Option.some.inj this
    simp only [List.mem_cons, List.not_mem_nil, or_false] at hn
    rcases hn with h | h | h
    · rw [key ha h]; simp only [orient3d, Pt.sub, Pt.cross, Pt.dot]; ring
    · rw [key hb h]; simp only [orient3d, Pt.sub, Pt.cross, Pt.dot]; ring
    · rw [key hc h]; simp only [orient3d, Pt.sub, Pt.cross, Pt.dot]; ring
  · exact (hd.hull w a b c pa pb pc hq ha hb hc v e.2 hv hpv hn).le

/-- The inside of a solid tet. -/
theorem within_inTet {m : Mesh (Pt K) V T} {a b c d : VId} {pa pb pc pd p : Pt K} (ha : At m a pa) (hb : At m b pb)
    (hc : At m c pc) (hd : At m d pd) (h0 : 0 < orient3d pa pb pc pd) (hw : Within m (a, b, c, d) p) : InTet pa pb pc pd p := by
  have side : ∀ {x y z u : VId} {px py pz : Pt K}, At m x px → At m y py → At m z pz →
      (x, y, z, u) ∈ twelve (a, b, c, d) → 0 < orient3d px py pz p := by
    intro x y z u px py pz hx hy hz hs
    obtain ⟨s, ⟨qx, qy, qz, k1, k2, k3, rfl⟩, h2⟩ := hw x y z u (mem_twelve.1 hs)
    simp only at k1 k2 k3 h2
    rw [hx.idxOri] at k1
    rw [hy.idxOri] at k2
    rw [hz.idxOri] at k3
    cases k1
    cases k2
    cases k3
    rw [Mesh.ghostSign, if_neg (by simp [hx.1.symm, hy.1.symm, hz.1.symm]), one_mul] at h2
    exact h2
  have s1 := side (u := d) ha hb hc (by simp [twelve])
  have s2 := side (u := b) ha hc hd (by simp [twelve])
  have s3 := side (u := c) ha hd hb (by simp [twelve])
  have s4 := side (u := a) hb hd hc (by simp [twelve])
  rw [inTet_iff h0]
  refine ⟨?_, ?_, ?_, s1⟩
  · rw [show orient3d p pb pc pd = orient3d pb pd pc p by simp only [orient3d, Pt.sub, Pt.cross, Pt.dot]; ring]
    exact s4
  · rw [show orient3d pa p pc pd = orient3d pa pc pd p by simp only [orient3d, Pt.sub, Pt.cross, Pt.dot]; ring]
    exact s2
  · rw [show orient3d pa pb p pd = orient3d pa pd pb p by simp only [orient3d, Pt.sub, Pt.cross, Pt.dot]; ring]
    exact s3

theorem hull_at {m : Mesh (Pt K) V T} (hm : Consistent m) {w : Walker} {a b c : VId} (h : m.tet4 w = some (a, b, c, GHOST)) :
    ∃ pa pb pc, At m a pa ∧ At m b pb ∧ At m c pc := by
  obtain ⟨h1, h2, h3, -⟩ := mem_vertices (S := InM m) hm (fun w v h => .inl ⟨w, h⟩) h
  have hn := hm.distinct _ _ _ _ _ h
  simp only [List.nodup_cons, List.mem_cons, List.not_mem_nil, or_false, not_or] at hn
  obtain ⟨pa, ha⟩ := exists_at hm h1 hn.1.2.2
  obtain ⟨pb, hb⟩ := exists_at hm h2 hn.2.1.2
  obtain ⟨pc, hc⟩ := exists_at hm h3 hn.2.2.1
  exact ⟨pa, pb, pc, ha, hb, hc⟩

/-- A Delaunay mesh whose center is inside fills space. -/
theorem Spec.Delaunay.tiles {m : Mesh (Pt K) V T} (hd : Delaunay m) (hm : Consistent m) (hp : AllPositive m) : Tiles m := by
  obtain ⟨w, a, b, c, d, pa, pb, pc, pd, h4, ha, hb, hc, hpd⟩ := hd.solid
  obtain ⟨p, ho, hw⟩ := exists_within hm hp (q := (a, b, c, d)) ⟨w, h4⟩ (by simp [ha.1.symm, hb.1.symm, hc.1.symm, hpd.1.symm])
  have hin := within_inTet ha hb hc hpd (hd.positive _ _ _ _ _ _ _ _ _ h4 ha hb hc hpd) hw
  refine tiles_of_layer hm hp ho ?_
  rw [layers, Set.ncard_eq_one]
  refine ⟨w.tet, ?_⟩
  ext k
  simp only [Set.mem_setOf_eq, Set.mem_singleton_iff]
  constructor
  · rintro ⟨⟨a', b', c', d'⟩, h3, h5⟩
    by_cases hg : GHOST ∈ [a', b', c', d']
    · exfalso
      obtain ⟨x, y, z, hs⟩ : ∃ x y z, SameTet (a', b', c', d') (x, y, z, GHOST) := by
        simp only [List.mem_cons, List.not_mem_nil, or_false] at hg
        rcases hg with h | h | h | h
        · exact ⟨d', c', b', by rw [h]; exact mem_twelve.1 (by simp [twelve])⟩
        · exact ⟨c', d', a', by rw [h]; exact mem_twelve.1 (by simp [twelve])⟩
        · exact ⟨b', a', d', by rw [h]; exact mem_twelve.1 (by simp [twelve])⟩
        · exact ⟨a', b', c', by rw [h]; exact mem_twelve.1 (by simp [twelve])⟩
      obtain ⟨w', -, hw'⟩ := tet4_write h3 hs
      obtain ⟨px, py, pz, hx, hy, hz⟩ := hull_at hm hw'
      obtain ⟨s, ⟨qx, qy, qz, k1, k2, k3, rfl⟩, h2⟩ := h5 x y z GHOST hs
      simp only at k1 k2 k3 h2
      rw [hx.idxOri] at k1
      rw [hy.idxOri] at k2
      rw [hz.idxOri] at k3
      cases k1
      cases k2
      cases k3
      rw [Mesh.ghostSign, if_neg (by simp [hx.1.symm, hy.1.symm, hz.1.symm]), one_mul] at h2
      obtain ⟨ka, kb, kc, kd, i1, i2, i3, i4, i5, rfl⟩ := hin
      refine (hd.behind hw' hx hy hz ?_ ?_).not_gt h2
      · have hS := mem_vertices (S := InMesh m) hm (fun w v h => ⟨w, h⟩) h4
        simp only [List.mem_cons, List.not_mem_nil, or_false, forall_eq_or_imp, forall_eq]
        exact ⟨⟨i1.le, a, hS.1, ha⟩, ⟨i2.le, b, hS.2.1, hb⟩, ⟨i3.le, c, hS.2.2.1, hc⟩, ⟨i4.le, d, hS.2.2.2, hpd⟩⟩
      · simp only [List.map_cons, List.map_nil, List.sum_cons, List.sum_nil]
        linarith
    · obtain ⟨h1, h2, h6, h7⟩ := mem_vertices (S := InM m) hm (fun w v h => .inl ⟨w, h⟩) h3
      simp only [List.mem_cons, List.not_mem_nil, or_false, not_or] at hg
      obtain ⟨qa, ja⟩ := exists_at hm h1 (Ne.symm hg.1)
      obtain ⟨qb, jb⟩ := exists_at hm h2 (Ne.symm hg.2.1)
      obtain ⟨qc, jc⟩ := exists_at hm h6 (Ne.symm hg.2.2.1)
      obtain ⟨qd, jd⟩ := exists_at hm h7 (Ne.symm hg.2.2.2)
      have := within_inTet ja jb jc jd (hd.positive _ _ _ _ _ _ _ _ _ h3 ja jb jc jd) h5
      exact C70_disjoint hd hm h3 h4 ja jb jc jd ha hb hc hpd this hin
  · rintro rfl
    obtain ⟨t, ht, -⟩ := Mesh.tet4_iff.1 h4
    have h3 : m.tet4 (Mesh.walkerFromTetId w.tet) = some (t.tet 3) := Mesh.tet4_iff.2 ⟨t, ht, rfl⟩
    refine ⟨_, h3, fun x y z u hs => hw x y z u ?_⟩
    exact SameTet.trans' (tet4_same (w := w) (w' := Mesh.walkerFromTetId w.tet) rfl h4 h3) hs

end Tet
