import Verif.Proofs.StarMesh
import Verif.Proofs.DelaunayInsert

/-!
# Inserting a vertex into a cavity that it sees from inside
-/

namespace Tet
open Spec Vec4
variable {K : Type} [Field K] [LinearOrder K] [IsStrictOrderedRing K]

section cells
variable {h : VId → Vec4 K} {ids : Finset Nat} {Q : Nat → V4}

/-- From a vertex in any direction there is a tet with that vertex. -/
theorem Glued.toward (hg : Glued ids Q) (pos : ∀ k ∈ ids, 0 < D h (Q k)) {v : VId} {k : Nat} (hk : k ∈ ids) (hv : HasV (Q k) v)
    (z : Vec4 K) : ∃ k' ∈ ids, HasV (Q k') v ∧ ∀ q, SameTet (Q k') q → F h q (h v) = 0 → 0 ≤ F h q z := by
  classical
  let L := (faceList h ids Q).filter fun f => decide (f (h v) ≠ 0)
  let sg : (Vec4 K →ₗ[K] K) → Vec4 K →ₗ[K] K := fun f => if 0 < f (h v) then f else -f
  let L0 := (faceList h ids Q).filter fun f => decide (f (h v) = 0 ∧ f z < 0)
  have sgv : ∀ f ∈ L, 0 < sg f (h v) := by
    intro f hf
    have hf : f (h v) ≠ 0 := by simpa [L] using (List.mem_filter.1 hf).2
    simp only [sg]
    split_ifs with h2
    · exact h2
    · rw [LinearMap.neg_apply, neg_pos]
      exact lt_of_le_of_ne (not_lt.1 h2) hf
  have near_v : ∀ g ∈ (twelve (Q k)).map (F h) ++ L.map sg,
      0 < g (h v) ∨ g (h v) = 0 ∧ 0 < g (h (Q k).1 + h (Q k).2.1 + h (Q k).2.2.1 + h (Q k).2.2.2) := by
    intro g hgm
    rcases List.mem_append.1 hgm with hgm | hgm
    · obtain ⟨q, hq, rfl⟩ := List.mem_map.1 hgm
      have hq := mem_twelve.1 hq
      have hD := pos k hk
      have hDq : 0 < F h q (h q.2.2.2) := by
        have : 0 < D h q := by rwa [D_same hq]
        exact this
      have nn : ∀ u, HasV (Q k) u → 0 ≤ F h q (h u) := by
        intro u hu
        obtain ⟨x, y, z, w⟩ := q
        have := (sameTet_hasV hq (v := u)).2 hu
        simp only [HasV, List.mem_cons, List.not_mem_nil, or_false] at this
        rcases this with rfl | rfl | rfl | rfl
        · exact (self0 (h u) (h y) (h z)).ge
        · exact (self1 (h x) (h u) (h z)).ge
        · exact (self2 (h x) (h y) (h u)).ge
        · exact hDq.le
      rcases (nn v hv).lt_or_eq with h2 | h2
      · exact .inl h2
      · refine .inr ⟨h2.symm, ?_⟩
        rw [map_add, map_add, map_add]
        have n1 := nn (Q k).1 (by simp [HasV])
        have n2 := nn (Q k).2.1 (by simp [HasV])
        have n3 := nn (Q k).2.2.1 (by simp [HasV])
        have n4 := nn (Q k).2.2.2 (by simp [HasV])
        have : HasV (Q k) q.2.2.2 := (sameTet_hasV hq).1 (by simp [HasV])
        simp only [HasV, List.mem_cons, List.not_mem_nil, or_false] at this
        rcases this with h3 | h3 | h3 | h3 <;> rw [h3] at hDq <;> linarith
    · obtain ⟨f, hf, rfl⟩ := List.mem_map.1 hgm
      exact .inl (sgv f hf)
  have nz : ∀ f ∈ faceList h ids Q, f ≠ 0 := by
    intro f hf
    obtain ⟨q, ⟨k, hk, hq⟩, rfl⟩ := mem_faceList.1 hf
    exact F_ne (by rw [D_same hq]; exact (pos k hk).ne')
  obtain ⟨x, hx, hxG⟩ := near_small (faceList h ids Q) _ _ _ nz near_v
  have hxf : Free h (Shown ids Q) x := fun q hq => hx _ (mem_faceList.2 ⟨q, hq, rfl⟩)
  have hall : ∀ q, q ∈ full ((ids.sort (· ≤ ·)).map Q) ↔ Shown ids Q q := by
    intro q
    simp only [List.mem_map, mem_full, Shown, exists_exists_and_eq_and, Finset.mem_sort]
  obtain ⟨y, hy, hyG⟩ := near_small (faceList h ids Q ++ (full ((ids.sort (· ≤ ·)).map Q)).map fun q => fun3 (h q.1) (h q.2.1) x)
    (L.map sg ++ L0.map (-·)) (h v) z (by
      intro f hf
      rcases List.mem_append.1 hf with hf | hf
      · exact nz f hf
      · intro h0
        obtain ⟨⟨a, b, c, d⟩, hq, rfl⟩ := List.mem_map.1 hf
        have h1 := hxf _ ((hall _).1 hq)
        have h3 : det (h a) (h b) x (h c) = 0 := LinearMap.congr_fun h0 (h c)
        refine h1 ?_
        change det (h a) (h b) (h c) x = 0
        rw [swap2, h3, neg_zero]) (by
      intro g hgm
      rcases List.mem_append.1 hgm with hgm | hgm
      · obtain ⟨f, hf, rfl⟩ := List.mem_map.1 hgm
        exact .inl (sgv f hf)
      · obtain ⟨f, hf, rfl⟩ := List.mem_map.1 hgm
        have := (List.mem_filter.1 hf).2
        simp only [decide_eq_true_eq] at this
        exact .inr ⟨by rw [LinearMap.neg_apply, this.1, neg_zero], by rw [LinearMap.neg_apply, neg_pos]; exact this.2⟩)
  have hyf : Free h (Shown ids Q) y := fun q hq => hy _ (List.mem_append_left _ (mem_faceList.2 ⟨q, hq, rfl⟩))
  have hclear : Clear h (Shown ids Q) x y := fun a b c d hS =>
    hy _ (List.mem_append_right _ (List.mem_map.2 ⟨(a, b, c, d), (hall _).2 hS, rfl⟩))
  have cx : Cell h (Q k) x := Cell_iff.2 fun q hq => hxG _ (List.mem_append_left _ (List.mem_map_of_mem (mem_twelve.2 hq)))
  let N : Vec4 K → Prop := fun z => ∀ f ∈ L, 0 < sg f z
  have hN : ∀ t : K, 0 ≤ t → t ≤ 1 → N (x + t • (y - x)) := by
    intro t t0 t1 f hf
    have k1 := hxG _ (List.mem_append_right _ (List.mem_map_of_mem hf))
    have k2 := hyG _ (List.mem_append_left _ (List.mem_map_of_mem hf))
    rw [map_add, map_smul, map_sub, smul_eq_mul]
    have : sg f x + t * (sg f y - sg f x) = (1 - t) * sg f x + t * sg f y := by ring
    rw [this]
    rcases t0.lt_or_eq with t0 | rfl
    · have := mul_nonneg (by linarith : 0 ≤ 1 - t) k1.le
      have := mul_pos t0 k2
      linarith
    · linarith
  obtain ⟨k2, hk2, c2, hr⟩ := walk_to pos hyf (N := N) (I := fun k => HasV (Q k) v) (R := fun k k' => HasV (Q k') v) (by
    intro k hk hv a b c d x hs hin hNx _
    obtain ⟨k', hk', z, hz⟩ := hg.adj k hk a b c d hs
    have hS : Shown ids Q (a, b, c, d) := ⟨k, hk, hs⟩
    have hv := (sameTet_hasV hs).2 hv
    have hv' : HasV (Q k') v := by
      refine (sameTet_hasV hz).1 ?_
      simp only [HasV, List.mem_cons, List.not_mem_nil, or_false] at hv ⊢
      rcases hv with rfl | rfl | rfl | rfl
      · simp
      · simp
      · simp
      · exfalso
        have hD : 0 < F h (a, b, c, v) (h v) := by
          have : 0 < D h (a, b, c, v) := by rw [D_same hs]; exact pos k hk
          exact this
        have := hNx (F h (a, b, c, v)) (List.mem_filter.2 ⟨mem_faceList.2 ⟨_, hS, rfl⟩, by simpa using hD.ne'⟩)
        simp only [sg, if_pos hD, hin.plane] at this
        exact lt_irrefl _ this
    exact ⟨k', hk', z, hz, hv', hv'⟩) _ x hxf hclear.avoids hN rfl k hk hv cx
  refine ⟨k2, hk2, ?_, fun q hq h0 => ?_⟩
  · cases hr with
    | refl => exact hv
    | tail _ hl => exact hl
  · by_contra hn
    have hf : F h q ∈ L0 := List.mem_filter.2 ⟨mem_faceList.2 ⟨q, ⟨k2, hk2, hq⟩, rfl⟩, by simpa using ⟨h0, not_le.1 hn⟩⟩
    have i1 := hyG _ (List.mem_append_right _ (List.mem_map_of_mem hf))
    have i2 := Cell_iff.1 c2 q hq
    rw [LinearMap.neg_apply, neg_pos] at i1
    linarith

end cells

variable {V T : Type} {m : Mesh (Pt K) V T} {id : VId} {E : List TId}

/-- Beyond a vertex of a tet, as seen from inside, one is outside its sphere. -/
theorem beyond_vertex {a b c d e : Pt K} {ka kb kc kd : K} (he : hom e = ka • hom a + kb • hom b + kc • hom c + kd • hom d)
    (hb : kb ≤ 0) (hc : kc ≤ 0) (hd : kd ≤ 0) (hne : e ≠ a) (hp : 0 < orient3d a b c d) : inSphere a b c d e < 0 := by
  obtain ⟨o, r2, hs⟩ := exists_sphere hp.ne'
  rw [inSphere_eq hs]
  refine mul_neg_of_pos_of_neg hp ?_
  have e0 := congrFun he 0
  have e1 := congrFun he 1
  have e2 := congrFun he 2
  have e3 := congrFun he 3
  simp only [hom, Pi.add_apply, Pi.smul_apply, smul_eq_mul, Matrix.cons_val_zero, Matrix.cons_val_one, Matrix.cons_val] at e0 e1 e2 e3
  have ka' : ka = 1 - kb - kc - kd := by linarith
  subst ka'
  have sa := hs a (by simp)
  have sb := hs b (by simp)
  have sc := hs c (by simp)
  have sd := hs d (by simp)
  have key : r2 - (e.sub o).norm2 = kb * (b.sub a).norm2 + kc * (c.sub a).norm2 + kd * (d.sub a).norm2 - (e.sub a).norm2 := by
    simp only [Pt.norm2, Pt.dot, Pt.sub] at sa sb sc sd ⊢
    rw [e0, e1, e2]
    linear_combination (-(1 - kb - kc - kd)) * sa - kb * sb - kc * sc - kd * sd
  rw [key]
  have n : 0 < (e.sub a).norm2 := norm2_pos (by
    intro h0
    simp only [Pt.sub, Pt.ext_iff, sub_eq_zero] at h0
    exact hne (Pt.ext_iff.2 h0))
  have nn : ∀ p : Pt K, 0 ≤ p.norm2 := by
    intro p
    simp only [Pt.norm2, Pt.dot]
    nlinarith [mul_self_nonneg p.x, mul_self_nonneg p.y, mul_self_nonneg p.z]
  have := mul_nonneg (neg_nonneg.2 hb) (nn (b.sub a))
  have := mul_nonneg (neg_nonneg.2 hc) (nn (c.sub a))
  have := mul_nonneg (neg_nonneg.2 hd) (nn (d.sub a))
  linarith

omit [IsStrictOrderedRing K] in
theorem exact_sign (pos : VId → Option (Pt K)) (id : VId) (q : V4) :
    (0 < (exactTests pos id).inSphere q ↔ 0 < sphereSign pos id q) ∧
    ((exactTests pos id).inSphere q = 0 ↔ sphereSign pos id q = 0) ∧
    (0 ≤ (exactTests pos id).inSphere q ↔ 0 ≤ sphereSign pos id q) := by
  simp only [exactTests]
  split_ifs with h1 h2
  · simp [h1, h1.ne', h1.le]
  · simp [h1, h2.ne, h2]
  · have := le_antisymm (not_lt.1 h1) (not_lt.1 h2)
    simp [this]

theorem sphereSign_same (hm : Consistent m) {p : Pt K} (hid : At m id p) {w w' : Walker} {q q' : V4} (hw : m.tet4 w = some q)
    (hw' : m.tet4 w' = some q') (hww : w.tet = w'.tet) : sphereSign m.position id q' = sphereSign m.position id q := by
  have key : ∀ {w : Walker} {q : V4}, m.tet4 w = some q →
      sphereSign m.position id q = -side (pvec m.position) q (pvec m.position id) := by
    intro w q hq
    exact sphereSign_side (pos := m.position) (hm.distinct _ _ _ _ _ hq) (fun v hv hg => by
      obtain ⟨p, hp⟩ := tet_positions hm hq v hv hg
      exact ⟨p, At.position hp⟩) (At.position hid) hid.1
  rw [key hw, key hw', side_same _ (tet4_same hww hw hw')]

omit [LinearOrder K] [IsStrictOrderedRing K] in
theorem Spec.At.homv {v : VId} {p : Pt K} (h : At m v p) : homv m v = hom p := by
  obtain ⟨h1, x, h2, h3⟩ := h
  simp [Tet.homv, h1, Mesh.idx, h2, h3]

/-- The vertex `v` of a tet seen from the new vertex: the other vertices have no positive part in the new vertex. -/
structure Behind (m : Mesh (Pt K) V T) (id v b c d : VId) (ka kb kc kd : K) : Prop where
  eq : homv m id = ka • homv m v + kb • homv m b + kc • homv m c + kd • homv m d
  hb : kb ≤ 0
  hc : kc ≤ 0
  hd : kd ≤ 0

theorem behind_of {v b c d : VId} (hD : 0 < D (homv m) (v, b, c, d))
    (hF : ∀ q, SameTet (v, b, c, d) q → F (homv m) q (homv m v) = 0 → 0 ≤ F (homv m) q (-homv m id)) :
    ∃ ka kb kc kd, Behind m id v b c d ka kb kc kd := by
  have hD' : 0 < det (homv m v) (homv m b) (homv m c) (homv m d) := hD
  obtain ⟨ka, kb, kc, kd, e⟩ := basis hD'.ne' (homv m id)
  have f1 := hF (v, b, c, d) (mem_twelve.1 (by simp [twelve])) (self0 ..)
  have f2 := hF (v, c, d, b) (mem_twelve.1 (by simp [twelve])) (self0 ..)
  have f3 := hF (v, d, b, c) (mem_twelve.1 (by simp [twelve])) (self0 ..)
  rw [map_neg, e] at f1 f2 f3
  simp only [map_add, map_smul, smul_eq_mul] at f1 f2 f3
  have z1 : F (homv m) (v, b, c, d) (homv m v) = 0 := self0 ..
  have z2 : F (homv m) (v, b, c, d) (homv m b) = 0 := self1 ..
  have z3 : F (homv m) (v, b, c, d) (homv m c) = 0 := self2 ..
  have z4 : F (homv m) (v, c, d, b) (homv m v) = 0 := self0 ..
  have z5 : F (homv m) (v, c, d, b) (homv m c) = 0 := self1 ..
  have z6 : F (homv m) (v, c, d, b) (homv m d) = 0 := self2 ..
  have z7 : F (homv m) (v, d, b, c) (homv m v) = 0 := self0 ..
  have z8 : F (homv m) (v, d, b, c) (homv m d) = 0 := self1 ..
  have z9 : F (homv m) (v, d, b, c) (homv m b) = 0 := self2 ..
  have d1 : 0 < F (homv m) (v, b, c, d) (homv m d) := hD
  have d2 : 0 < F (homv m) (v, c, d, b) (homv m b) := by
    have : 0 < D (homv m) (v, c, d, b) := by rwa [D_same (p := (v, b, c, d)) (mem_twelve.1 (by simp [twelve]))]
    exact this
  have d3 : 0 < F (homv m) (v, d, b, c) (homv m c) := by
    have : 0 < D (homv m) (v, d, b, c) := by rwa [D_same (p := (v, b, c, d)) (mem_twelve.1 (by simp [twelve]))]
    exact this
  rw [z1, z2, z3] at f1
  rw [z4, z5, z6] at f2
  rw [z7, z8, z9] at f3
  refine ⟨ka, kb, kc, kd, e, ?_, ?_, ?_⟩
  · by_contra hn
    have := mul_pos (not_le.1 hn) d2
    linarith
  · by_contra hn
    have := mul_pos (not_le.1 hn) d3
    linarith
  · by_contra hn
    have := mul_pos (not_le.1 hn) d1
    linarith

omit [Field K] [LinearOrder K] [IsStrictOrderedRing K] in
theorem turned (q' : V4) {w : Walker} {q : V4} (h : m.tet4 w = some q) (hs : SameTet q q') : ∃ w', w'.tet = w.tet ∧ m.tet4 w' = some q' :=
  tet4_write h hs

omit [Field K] [LinearOrder K] [IsStrictOrderedRing K] in
theorem tet4_fourth {w : Walker} {a b c d : VId} (h : m.tet4 w = some (a, b, c, d)) : m.fourth w = some d := by
  obtain ⟨t, h1, h2⟩ := Mesh.tet4_iff.1 h
  simp only [Tet.tet, Prod.mk.injEq] at h2
  simp [Mesh.fourth, h1, h2.2.2.2]

theorem sphereSign_solid {a b c d : VId} {pa pb pc pd p : Pt K} (ha : At m a pa) (hb : At m b pb) (hc : At m c pc) (hd : At m d pd)
    (hid : At m id p) : sphereSign m.position id (a, b, c, d) = inSphere pa pb pc pd p := by
  simp [sphereSign, ha.1, hb.1, hc.1, hd.1, At.position ha, At.position hb, At.position hc, At.position hd, At.position hid]

theorem sphereSign_ghost {a b c : VId} {pa pb pc p : Pt K} (ha : At m a pa) (hb : At m b pb) (hc : At m c pc)
    (hid : At m id p) : sphereSign m.position id (a, b, c, GHOST) = orient3d pa pb pc p := by
  simp [sphereSign, ha.1, hb.1, hc.1, At.position ha, At.position hb, At.position hc, At.position hid]

/-- A tet with the vertex `v` such that the new vertex is on the other side of `v` does not conflict with the new vertex. -/
theorem Behind.free (hm : Consistent m) (ht : Tiles m) {p : Pt K} (hid : At m id p) {v b c d : VId} {ka kb kc kd : K}
    (hB : Behind m id v b c d ka kb kc kd) {w0 : Walker} (hw0 : m.tet4 w0 = some (v, b, c, d)) (hne : ¬ At m v p) :
    ¬ Conflicts (exactTests m.position id).inSphere m w0.tet := by
  have hD : ∀ {w : Walker} {q : V4}, m.tet4 w = some q → 0 < D (homv m) q := fun hq => ht.positive.pos ⟨_, hq⟩
  have pos : ∀ {w : Walker} {a b c d : VId}, m.tet4 w = some (a, b, c, d) → ∀ x ∈ [a, b, c, d], x ≠ GHOST → ∃ p, At m x p :=
    fun h => tet_positions hm h
  -- all vertices solid
  have solid : ∀ {w : Walker} {v b c d : VId} {ka kb kc kd : K}, Behind m id v b c d ka kb kc kd → m.tet4 w = some (v, b, c, d) →
      ¬ At m v p → GHOST ∉ [v, b, c, d] → sphereSign m.position id (v, b, c, d) < 0 := by
    intro w v b c d ka kb kc kd hB hw hne hg
    simp only [List.mem_cons, List.not_mem_nil, or_false, not_or] at hg
    obtain ⟨pv, hv⟩ := pos hw v (by simp) (Ne.symm hg.1)
    obtain ⟨pb, hb⟩ := pos hw b (by simp) (Ne.symm hg.2.1)
    obtain ⟨pc, hc⟩ := pos hw c (by simp) (Ne.symm hg.2.2.1)
    obtain ⟨pd, hd⟩ := pos hw d (by simp) (Ne.symm hg.2.2.2)
    rw [sphereSign_solid hv hb hc hd hid]
    have e := hB.eq
    rw [hid.homv, hv.homv, hb.homv, hc.homv, hd.homv] at e
    have := hD hw
    change 0 < det (homv m v) (homv m b) (homv m c) (homv m d) at this
    rw [hv.homv, hb.homv, hc.homv, hd.homv, det_hom] at this
    refine beyond_vertex e hB.hb hB.hc hB.hd ?_ this
    rintro rfl
    exact hne hv
  -- the sign for the tet
  rintro ⟨w', q', hww, hw', hconf⟩
  have hsign := sphereSign_same hm hid hw0 hw' hww.symm
  rw [(exact_sign _ _ _).1, (exact_sign _ _ _).2.1, hsign] at hconf
  have done : sphereSign m.position id (v, b, c, d) < 0 → False := by
    intro h
    rcases hconf with h1 | ⟨h1, -⟩ <;> linarith
  by_cases hg : GHOST ∈ [v, b, c, d]
  · by_cases hv : v = GHOST
    · subst hv
      have hnd := hm.distinct _ _ _ _ _ hw0
      simp only [List.nodup_cons, List.mem_cons, List.not_mem_nil, or_false, not_or, not_false_eq_true, List.nodup_nil,
        and_true] at hnd
      obtain ⟨pb, hb⟩ := pos hw0 b (by simp) (Ne.symm hnd.1.1)
      obtain ⟨pc, hc⟩ := pos hw0 c (by simp) (Ne.symm hnd.1.2.1)
      obtain ⟨pd, hd⟩ := pos hw0 d (by simp) (Ne.symm hnd.1.2.2)
      apply done
      obtain ⟨w2, h2t, h2⟩ := turned (d, c, b, GHOST) hw0 (mem_twelve.1 (by simp [twelve]))
      rw [sphereSign_same hm hid h2 hw0 h2t, sphereSign_ghost hd hc hb hid, ← det_hom, ← hd.homv, ← hc.homv, ← hb.homv, ← hid.homv,
        hB.eq]
      have hD2 := hD h2
      change 0 < det (homv m d) (homv m c) (homv m b) (homv m GHOST) at hD2
      rw [det_add, det_add, det_add, det_smul, det_smul, det_smul, det_smul, self0, self1, self2, mul_zero, mul_zero, mul_zero]
      have hl := congrFun hB.eq 3
      rw [hid.homv, hb.homv, hc.homv, hd.homv] at hl
      simp [Tet.homv, hom] at hl
      have hka : ka < 0 := by
        have := hB.hb
        have := hB.hc
        have := hB.hd
        linarith
      have := mul_neg_of_neg_of_pos hka hD2
      linarith
    · -- the ghost vertex last
      have key : ∀ {w : Walker} {b c d : VId} {ka kb kc kd : K}, Behind m id v b c d ka kb kc kd → m.tet4 w = some (v, b, c, d) →
          w.tet = w0.tet → d = GHOST → False := by
        intro w b c d ka kb kc kd hB hw hww hd
        subst hd
        rw [sphereSign_same hm hid hw hw0 hww] at hconf
        have hnd := hm.distinct _ _ _ _ _ hw
        simp only [List.nodup_cons, List.mem_cons, List.not_mem_nil, or_false, not_or, not_false_eq_true, List.nodup_nil,
          and_true] at hnd
        obtain ⟨pv, hpv⟩ := pos hw v (by simp) hv
        obtain ⟨pb, hb⟩ := pos hw b (by simp) hnd.2.1.2
        obtain ⟨pc, hc⟩ := pos hw c (by simp) hnd.2.2
        have hDw := hD hw
        change 0 < det (homv m v) (homv m b) (homv m c) (homv m GHOST) at hDw
        have e : sphereSign m.position id (v, b, c, GHOST) = kd * det (homv m v) (homv m b) (homv m c) (homv m GHOST) := by
          rw [sphereSign_ghost hpv hb hc hid, ← det_hom, ← hpv.homv, ← hc.homv, ← hb.homv, ← hid.homv, hB.eq]
          rw [det_add, det_add, det_add, det_smul, det_smul, det_smul, det_smul, self0, self1, self2]
          ring
        rw [e] at hconf
        have hkd : kd = 0 := by
          rcases hconf with h1 | ⟨h1, -⟩
          · have := mul_nonneg (neg_nonneg.2 hB.hd) hDw.le
            linarith
          · exact (mul_eq_zero.1 h1).resolve_right hDw.ne'
        subst hkd
        rcases hconf with h1 | ⟨-, h1⟩
        · simp at h1
        · obtain ⟨x, q2, hx, hq2, hs⟩ := h1 w hww (tet4_fourth hw)
          obtain ⟨x', z, hx', -, hz⟩ := toAcross hm hw
          rw [hx] at hx'
          cases hx'
          rw [hq2] at hz
          cases hz
          have hDz := hD hq2
          have hz : z ≠ GHOST := by
            rintro rfl
            change 0 < det (homv m b) (homv m v) (homv m c) (homv m GHOST) at hDz
            rw [Vec4.swap0] at hDz
            linarith
          obtain ⟨w2, h2t, h2⟩ := turned (v, c, b, z) hq2 (mem_twelve.1 (by simp [twelve]))
          have hneg := solid (w := w2) (v := v) (b := c) (c := b) (d := z) (ka := ka) (kb := kc) (kc := kb) (kd := 0)
            ⟨by rw [hB.eq, zero_smul, zero_smul]; module, hB.hc, hB.hb, le_rfl⟩ h2 hne (by
              simp only [List.mem_cons, List.not_mem_nil, or_false, not_or]
              exact ⟨Ne.symm hv, Ne.symm hc.1, Ne.symm hb.1, Ne.symm hz⟩)
          rw [(exact_sign _ _ _).2.2, sphereSign_same hm hid h2 hq2 h2t] at hs
          linarith
      simp only [List.mem_cons, List.not_mem_nil, or_false] at hg
      rcases hg with h | h | h | h
      · exact hv h.symm
      · obtain ⟨w2, h2t, h2⟩ := turned (v, c, d, b) hw0 (mem_twelve.1 (by simp [twelve]))
        exact key (w := w2) (b := c) (c := d) (d := b) (ka := ka) (kb := kc) (kc := kd) (kd := kb)
          ⟨by rw [hB.eq]; module, hB.hc, hB.hd, hB.hb⟩ h2 h2t h.symm
      · obtain ⟨w2, h2t, h2⟩ := turned (v, d, b, c) hw0 (mem_twelve.1 (by simp [twelve]))
        exact key (w := w2) (b := d) (c := b) (d := c) (ka := ka) (kb := kd) (kc := kb) (kd := kc)
          ⟨by rw [hB.eq]; module, hB.hd, hB.hb, hB.hc⟩ h2 h2t h.symm
      · exact key hB hw0 rfl h.symm
  · exact done (solid hB hw0 hne hg)

/-- Around every vertex there is a tet that does not conflict with the new vertex and does not have the new vertex in it. -/
theorem unswallowed (hm : Consistent m) (ht : Tiles m) {p : Pt K} (hid : At m id p) {v : VId} (hv : InMesh m v) (hne : ¬ At m v p) :
    ∃ w b c d, m.tet4 w = some (v, b, c, d) ∧ (∃ ka kb kc kd, Behind m id v b c d ka kb kc kd) ∧
      ¬ Conflicts (exactTests m.position id).inSphere m w.tet := by
  obtain ⟨ids, hids, hg, hs, h4⟩ := hm.glued
  obtain ⟨w, hw⟩ := hv
  obtain ⟨b, c, d, hq⟩ := first_tet4 hw
  have hat : ∀ {w : Walker} {q : V4}, m.tet4 w = some q → w.tet ∈ ids ∧ SameTet (tetAt m w.tet) q := by
    intro w q h
    obtain ⟨t, ht, -⟩ := Mesh.tet4_iff.1 h
    have hk : w.tet ∈ ids := (hids _).2 (by rw [ht]; rfl)
    exact ⟨hk, tet4_same (w := Mesh.walkerFromTetId w.tet) (w' := w) rfl ((h4 _ _).2 ⟨hk, rfl⟩) h⟩
  obtain ⟨k', hk', hv', hF⟩ := hg.toward (h := homv m) (fun k hk => ht.positive.pos ⟨_, (h4 k _).2 ⟨hk, rfl⟩⟩) (hat hq).1
    (v := v) ((sameTet_hasV (hat hq).2).1 (by simp [HasV])) (-homv m id)
  obtain ⟨b', c', d', hs'⟩ : ∃ b' c' d', SameTet (tetAt m k') (v, b', c', d') := by
    generalize tetAt m k' = q at hv'
    obtain ⟨x, y, z, u⟩ := q
    simp only [HasV, List.mem_cons, List.not_mem_nil, or_false] at hv'
    rcases hv' with rfl | rfl | rfl | rfl
    · exact ⟨y, z, u, mem_twelve.1 (by simp [twelve])⟩
    · exact ⟨z, x, u, mem_twelve.1 (by simp [twelve])⟩
    · exact ⟨x, y, u, mem_twelve.1 (by simp [twelve])⟩
    · exact ⟨x, z, y, mem_twelve.1 (by simp [twelve])⟩
  obtain ⟨w', rfl, hw'⟩ := tet4_write ((h4 _ _).2 ⟨hk', rfl⟩) hs'
  obtain ⟨ka, kb, kc, kd, hB⟩ := behind_of (ht.positive.pos ⟨_, hw'⟩) fun q hq => hF q (SameTet.trans' hs' hq)
  exact ⟨w', b', c', d', hw', ⟨ka, kb, kc, kd, hB⟩, hB.free hm ht hid hw' hne⟩

end Tet
