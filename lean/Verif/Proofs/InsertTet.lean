import Verif.Model.Transform
import Verif.Proofs.CapFlips
import Verif.Proofs.FlipInFill
import Verif.Proofs.FlipQuality

/-!
# `insert_tet` links a tet into a mesh with a hole
-/

namespace Tet
open Spec
variable {P V T : Type}

theorem Tet.faceCode_face : ∀ i, face (Mesh.faceCode i) = i := by decide
theorem faceCode_div : ∀ i, div4 (Mesh.faceCode i) = 0 := by decide

/-! ### Twin triangles -/

/-- The triangle at `e` of `t` is that at `e'` of `t'` seen from the other side. -/
def Twin (t : Tet T) (e : Code) (t' : Tet T) (e' : Code) : Prop := t'.tri e' = (t.second e, t.first e, t.third e)

theorem Twin.symm {t : Tet T} {e} {t' : Tet T} {e'} (h : Twin t e t' e') : Twin t' e' t e := by
  simp only [Twin, Tet.tri, Prod.mk.injEq] at h ⊢
  exact ⟨h.2.1.symm, h.1.symm, h.2.2.symm⟩

theorem Twin.next {t : Tet T} {e} {t' : Tet T} {e'} (h : Twin t e t' e') : Twin t (nfe e) t' (pfe e') := by
  have h1 := t.tri_nfe e
  have h2 := t'.tri_pfe e'
  simp only [Twin, Tet.tri, Prod.mk.injEq] at h h1 h2 ⊢
  exact ⟨by rw [h2.1, h1.2.1, h.2.2], by rw [h2.2.1, h1.1, h.1], by rw [h2.2.2, h1.2.2, h.2.1]⟩

theorem Twin.prev {t : Tet T} {e} {t' : Tet T} {e'} (h : Twin t e t' e') : Twin t (pfe e) t' (nfe e') := by
  have h1 := t.tri_pfe e
  have h2 := t'.tri_nfe e'
  simp only [Twin, Tet.tri, Prod.mk.injEq] at h h1 h2 ⊢
  exact ⟨by rw [h2.1, h1.2.1, h.2.1], by rw [h2.2.1, h1.1, h.2.2], by rw [h2.2.2, h1.2.2, h.1]⟩

/-- A link over a triangle holds for all three edges of it. -/
theorem link_face {t t' : Tet T} {k j : TId} {e e' : Code} (h : Twin t e t' e') (h1 : t.adj e = ⟨j, e'⟩) (h2 : t'.adj e' = ⟨k, e⟩)
    {c : Code} (hc : face c = face e) : ∃ c', face c' = face e' ∧ Twin t c t' c' ∧ t.adj c = ⟨j, c'⟩ ∧ t'.adj c' = ⟨k, c⟩ := by
  rcases (face_eq_iff e c).1 hc.symm with rfl | rfl | rfl
  · exact ⟨e', rfl, h, h1, h2⟩
  · exact ⟨_, face_pfe _, h.next, by rw [Tet.adj_nfe, h1]; rfl, by rw [Tet.adj_pfe, h2]; rfl⟩
  · exact ⟨_, face_nfe _, h.prev, by rw [Tet.adj_pfe, h1]; rfl, by rw [Tet.adj_nfe, h2]; rfl⟩

/-- The tet without its adjacencies. -/
def bare (t : Tet T) : Tet T := { t with opp := fun _ => ⟨idMax, 0⟩ }

theorem core_setOpp (t : Tet T) (f w) : bare (t.setOpp f w) = bare t := rfl

theorem core_tri {t t' : Tet T} (h : bare t = bare t') (e) : t'.tri e = t.tri e := by
  have : t.vertices = t'.vertices := congrArg (fun z => z.vertices) h
  simp only [Tet.tri, Tet.first, Tet.second, Tet.third, this]

theorem core_uniq {M M' : TMap T} (h : ∀ j, (M' j).map bare = (M j).map bare) (hu : TriUniqueT M) : TriUniqueT M' := by
  intro k t e k' t' e' h1 h2 h3
  have q1 := h k
  have q2 := h k'
  rw [h1] at q1
  rw [h2] at q2
  obtain ⟨u, g1, g2⟩ := Option.map_eq_some_iff.1 q1.symm
  obtain ⟨u', g3, g4⟩ := Option.map_eq_some_iff.1 q2.symm
  exact hu k u e k' u' e' g1 g3 (by rw [← core_tri g2, ← core_tri g4, h3])

theorem core_dist {M M' : TMap T} (h : ∀ j, (M' j).map bare = (M j).map bare) (hu : DistinctT M) : DistinctT M' := by
  intro k t h1
  have q1 := h k
  rw [h1] at q1
  obtain ⟨u, g1, g2⟩ := Option.map_eq_some_iff.1 q1.symm
  have : u.vertices = t.vertices := congrArg (fun z => z.vertices) g2
  rw [← this]
  exact hu k u g1

theorem uniq_twin {M : TMap T} (hu : TriUniqueT M) {t : Tet T} {e j t1 e1 j' t2 e2} (h1 : M j = some t1) (h2 : M j' = some t2)
    (g1 : Twin t e t1 e1) (g2 : Twin t e t2 e2) : j' = j ∧ e2 = e1 :=
  hu _ _ _ _ _ _ h1 h2 (Eq.trans g2 (Eq.symm g1))

/-- A tet does not meet itself. -/
theorem twin_ne {t : Tet T} (h : Function.Injective t.vertices) (e e' : Code) : ¬ Twin t e t e' := by
  intro h'
  simp only [Twin, Tet.tri, Prod.mk.injEq] at h'
  have key : ∀ e e', ¬ (firstIdx e' = secondIdx e ∧ secondIdx e' = firstIdx e ∧ thirdIdx e' = thirdIdx e) := by decide
  exact key e e' ⟨h h'.1, h h'.2.1, h h'.2.2⟩

/-- Looking for a triangle by the index. -/
theorem lookup_tri {y : Mesh P V T} (track : y.trackTriMap = true)
    (ts : ∀ s w, y.triMap s = some w → ∃ t, y.tets.get w.tet = some t ∧ triKey (t.tri w.edge) = s)
    (hd : DistinctT y.tets.get) (s : V3) :
    (y.triMap (triKey s) = none ∧ ∀ fuel, y.walkerFromTri fuel s = some none) ∨
      ∃ w t, (∀ fuel, y.walkerFromTri fuel s = some (some w)) ∧ y.tets.get w.tet = some t ∧ t.tri w.edge = s := by
  obtain ⟨a, b, c⟩ := s
  cases hk : y.triMap (triKey (a, b, c)) with
  | none => exact .inl ⟨rfl, fun fuel => by simp [Mesh.walkerFromTri, track, hk]⟩
  | some w =>
    right
    obtain ⟨t, h1, h2⟩ := ts _ _ hk
    have hrot : Rotation (t.tri w.edge) (a, b, c) :=
      Rotation.trans (h2 ▸ triKey_rotation (t.tri w.edge)) (Rotation.symm (triKey_rotation (a, b, c)))
    obtain ⟨n1, n2, n3, -⟩ := Tet.ne_of_inj (hd _ _ h1) w.edge
    have h4 : y.tet4 w = some (t.first w.edge, t.second w.edge, t.third w.edge, t.fourth w.edge) := Mesh.tet4_iff.2 ⟨t, h1, rfl⟩
    rcases hrot with h | h | h <;> simp only [Tet.tri, Prod.mk.injEq] at h <;> obtain ⟨rfl, rfl, rfl⟩ := h
    · exact ⟨w, t, fun fuel => by simp [Mesh.walkerFromTri, track, hk, Mesh.toEdgeAssumingTri, h4], h1, rfl⟩
    · exact ⟨w.nfe, t, fun fuel => by simp [Mesh.walkerFromTri, track, hk, Mesh.toEdgeAssumingTri, h4, n1], h1, t.tri_nfe _⟩
    · exact ⟨w.pfe, t, fun fuel => by simp [Mesh.walkerFromTri, track, hk, Mesh.toEdgeAssumingTri, h4, n2, n3.symm], h1, t.tri_pfe _⟩

/-! ### The loop over the triangles -/

/-- The vertex without its tet. -/
def unref (x : Vertex P V) : Vertex P V := { x with tet := invalidWalker }

/-- The mesh while the triangles of the new tet `k` are linked: those in `done` are. -/
structure Mid (x : Mesh P V T) (B : TMap T) (k : TId) (t0 : Tet T) (done : Fin 4 → Prop) (y : Mesh P V T) : Prop where
  wfv : y.vertices.WF
  wft : y.tets.WF
  edges : y.edges = x.edges
  track : y.trackTriMap = true
  cen : y.center = x.center
  core : ∀ j, (y.tets.get j).map bare = (B j).map bare
  link0 : ∀ j t e j' t' e', j ≠ k → j' ≠ k → y.tets.get j = some t → y.tets.get j' = some t' → Twin t e t' e' → t.adj e = ⟨j', e'⟩
  link1 : ∀ t e j t' e', y.tets.get k = some t → done (face e) → y.tets.get j = some t' → Twin t e t' e' →
    t.adj e = ⟨j, e'⟩ ∧ t'.adj e' = ⟨k, e⟩
  tsound : ∀ s w, y.triMap s = some w → ∃ t, y.tets.get w.tet = some t ∧ triKey (t.tri w.edge) = s
  tc : ∀ j t e, y.tets.get j = some t → (j = k → done (face e)) → ∃ w, y.triMap (triKey (t.tri e)) = some w
  vat : ∀ v, (y.vertices.get v).map unref = (x.vertices.get v).map unref
  vptr : ∀ v b, y.vertices.get v = some b → (∃ c, b.tet = ⟨k, c⟩ ∧ t0.first c = v) ∨
    ((∀ i, done i → t0.vertices i ≠ v) ∧ ∃ b0, x.vertices.get v = some b0 ∧ b0.tet = b.tet)
  size : y.tets.size = x.tets.size + 1

variable {x y : Mesh P V T} {B : TMap T} {k : TId} {t0 : Tet T} {done : Fin 4 → Prop}

theorem Mid.new (h : Mid x B k t0 done y) (hB : B k = some t0) : ∃ t, y.tets.get k = some t ∧ bare t = bare t0 := by
  have := h.core k
  rw [hB] at this
  exact Option.map_eq_some_iff.1 this

/-- The last part of a step: the index and the vertex. -/
theorem Mid.finish (h : Mid x B k t0 done y) (hB : B k = some t0) (hd : DistinctT B) (i : Fin 4)
    (hl : ∀ t e j t' e', y.tets.get k = some t → face e = i → y.tets.get j = some t' → Twin t e t' e' →
      t.adj e = ⟨j, e'⟩ ∧ t'.adj e' = ⟨k, e⟩) :
    Mid x B k t0 (fun f => done f ∨ f = i) ((y.triInsert (t0.tri (Mesh.faceCode i)) ⟨k, Mesh.faceCode i⟩).setVertexTet (t0.vertices i)
      (Walker.perm ⟨k, Mesh.faceCode i⟩ P3210)) := by
  obtain ⟨tk, hk, hck⟩ := h.new hB
  have hdt := core_dist h.core hd
  have htri : ∀ e, tk.tri e = t0.tri e := fun e => core_tri hck.symm e
  refine ⟨h.wfv.modify _ _, h.wft, h.edges, h.track, h.cen, h.core, h.link0, ?_, ?_, ?_, ?_, ?_, h.size⟩
  · rintro t e j t' e' q1 (q2 | q2) q3 q4
    · exact h.link1 t e j t' e' q1 q2 q3 q4
    · exact hl t e j t' e' q1 q2 q3 q4
  · intro s w hw
    simp only [Mesh.setVertexTet, Mesh.triInsert, Function.update_apply] at hw
    split_ifs at hw with hs
    · obtain rfl := Option.some.inj hw
      exact ⟨tk, hk, by rw [htri, hs]⟩
    · exact h.tsound s w hw
  · intro j t e q1 q2
    simp only [Mesh.setVertexTet, Mesh.triInsert, Function.update_apply]
    split_ifs with hs
    · exact ⟨_, rfl⟩
    · refine h.tc j t e q1 fun hj => (q2 hj).resolve_right fun hi => hs ?_
      subst hj
      rw [show t = tk from Option.some.inj (q1.symm.trans hk), ← htri]
      exact (Tet.triKey_face (hdt _ _ hk) (hi.trans (Tet.faceCode_face i).symm)).symm
  · intro v
    rw [← h.vat v]
    simp only [Mesh.setVertexTet, Mesh.triInsert, IdMap.get_modify]
    split_ifs with hv
    · rw [Option.map_map]; rfl
    · rfl
  · intro v b hb
    simp only [Mesh.setVertexTet, Mesh.triInsert, IdMap.get_modify] at hb
    split_ifs at hb with hv
    · left
      obtain ⟨b0, -, rfl⟩ := Option.map_eq_some_iff.1 hb
      refine ⟨_, rfl, ?_⟩
      rw [hv]
      have : ∀ i, firstIdx (toPerm (Mesh.faceCode i) P3210) = i := by decide
      exact congrArg t0.vertices (this i)
    · rcases h.vptr v b hb with h1 | ⟨h1, h2⟩
      · exact .inl h1
      · exact .inr ⟨fun f hf => hf.elim (h1 f) fun hfi => fun he => hv (by rw [← he, hfi]), h2⟩

theorem Mid.step (h : Mid x B k t0 done y) (hB : B k = some t0) (hd : DistinctT B) (hu : TriUniqueT B) (i : Fin 4)
    (hv : ∀ j, ∃ b, x.vertices.get (t0.vertices j) = some b) (fuel : Nat) :
    ∃ y', Mesh.itFace fuel k t0.vertices y i = some y' ∧ Mid x B k t0 (fun f => done f ∨ f = i) y' := by
  obtain ⟨tk, hk, hck⟩ := h.new hB
  have hdt := core_dist h.core hd
  have hut := core_uniq h.core hu
  have htri : ∀ e, tk.tri e = t0.tri e := fun e => core_tri hck.symm e
  have hvi : ∃ b, y.vertices.get (t0.vertices i) = some b := by
    obtain ⟨b, hb⟩ := hv i
    have := h.vat (t0.vertices i)
    rw [hb] at this
    obtain ⟨b', h1, -⟩ := Option.map_eq_some_iff.1 this
    exact ⟨b', h1⟩
  obtain ⟨b, hb⟩ := hvi
  set fc := Mesh.faceCode i with hfc
  have hy : y.tri ⟨k, fc⟩ = some (t0.first fc, t0.second fc, t0.third fc) := Mesh.tri_iff.2 ⟨tk, hk, htri fc⟩
  have htk : tk.first fc = t0.first fc ∧ tk.second fc = t0.second fc ∧ tk.third fc = t0.third fc := by
    have := htri fc
    simpa [Tet.tri] using this
  rcases lookup_tri h.track h.tsound hdt (t0.second fc, t0.first fc, t0.third fc) with ⟨h1, h2⟩ | ⟨w, t', h1, h2, h3⟩
  · refine ⟨_, ?_, h.finish hB hd i ?_⟩
    · rw [Mesh.itFace, ← hfc, hy]
      simp only [Option.bind_eq_bind, Option.bind_some, h2]
      rw [show (y.triInsert (t0.first fc, t0.second fc, t0.third fc) ⟨k, fc⟩).vertices.get (t0.vertices i) = some b from hb]
      rfl
    · intro t e j t' e' q1 q2 q3 q4
      exfalso
      obtain rfl : t = tk := Option.some.inj (q1.symm.trans hk)
      have hjk : j ≠ k := by
        rintro rfl
        obtain rfl : t' = t := Option.some.inj (q3.symm.trans q1)
        exact twin_ne (hdt _ _ q1) _ _ q4
      obtain ⟨w, hw⟩ := h.tc j t' e' q3 (fun h => absurd h hjk)
      have hrot : ∃ c', face c' = face e' ∧ Twin t fc t' c' := by
        rcases (face_eq_iff e fc).1 (q2.trans (Tet.faceCode_face i).symm) with h | h | h
        · exact ⟨e', rfl, h ▸ q4⟩
        · exact ⟨_, face_pfe _, h ▸ q4.next⟩
        · exact ⟨_, face_nfe _, h ▸ q4.prev⟩
      obtain ⟨c', g1, g2⟩ := hrot
      rw [Tet.triKey_face (hdt _ _ q3) g1, g2, htk.1, htk.2.1, htk.2.2, h1] at hw
      cases hw
  · obtain ⟨j, c⟩ := w
    have htw : Twin tk fc t' c := by rw [Twin, h3, htk.1, htk.2.1, htk.2.2]
    have hjk : j ≠ k := by
      rintro rfl
      obtain rfl : t' = tk := Option.some.inj (h2.symm.trans hk)
      exact twin_ne (hdt _ _ hk) _ _ htw
    let tk' := tk.setOpp i ⟨j, c⟩
    let tj' := t'.setOpp (face c) (Mesh.unturn c ⟨k, fc⟩)
    let y1 : Mesh P V T := { y with tets := (y.tets.modify k (·.setOpp i ⟨j, c⟩)).modify j (·.setOpp (face c) (Mesh.unturn c ⟨k, fc⟩)) }
    have get1 : ∀ l, y1.tets.get l = if l = k then some tk' else if l = j then some tj' else y.tets.get l := by
      intro l
      simp only [y1, IdMap.get_modify]
      by_cases hlk : l = k
      · subst hlk
        simp [hjk.symm, hk, tk']
      · by_cases hlj : l = j
        · subst hlj
          simp only [if_true, hlk, if_false]
          rw [show y.tets.get l = some t' from h2]
          rfl
        · simp [hlk, hlj]
    have ck : ∀ e, tk'.adj e = if face e = i then (tk.setOpp i ⟨j, c⟩).adj e else tk.adj e := by
      intro e
      split_ifs with he
      · rfl
      · have := Tet.adj_setOpp_ne tk (c := fc) (c' := e) (by rw [Tet.faceCode_face]; exact he) ⟨j, c⟩
        rwa [Tet.faceCode_face] at this
    have ak : tk'.adj fc = ⟨j, c⟩ := by
      simp only [tk', Tet.adj, Tet.turn, hfc, faceCode_div, Tet.faceCode_face, Tet.setOpp, Function.update_self]
    have aj : tj'.adj c = ⟨k, fc⟩ := Tet.adj_setOpp t' c _
    have aj' : ∀ e, face e ≠ face c → tj'.adj e = t'.adj e := fun e he => Tet.adj_setOpp_ne t' he _
    have tk't : ∀ e, tk'.tri e = tk.tri e := fun e => rfl
    have tj't : ∀ e, tj'.tri e = t'.tri e := fun e => rfl
    have core1 : ∀ l, (y1.tets.get l).map bare = (B l).map bare := by
      intro l
      rw [← h.core l, get1 l]
      split_ifs with h5 h6
      · subst h5
        rw [hk]; rfl
      · subst h6
        rw [show y.tets.get l = some t' from h2]; rfl
      · rfl
    have hu1 := core_uniq core1 hu
    have hd1 := core_dist core1 hd
    -- the old tet at an index
    have old1 : ∀ l t, y1.tets.get l = some t → ∃ t1, y.tets.get l = some t1 ∧ (∀ e, t.tri e = t1.tri e) ∧
        (l ≠ k → l ≠ j → t = t1) := by
      intro l t hl
      rw [get1] at hl
      split_ifs at hl with h5 h6
      · subst h5
        obtain rfl := Option.some.inj hl
        exact ⟨tk, hk, tk't, fun h => absurd rfl h⟩
      · subst h6
        obtain rfl := Option.some.inj hl
        exact ⟨t', h2, tj't, fun _ h => absurd rfl h⟩
      · exact ⟨t, hl, fun _ => rfl, fun _ _ => rfl⟩
    have twinOld : ∀ {l t l' u e e'}, y1.tets.get l = some t → y1.tets.get l' = some u → Twin t e u e' →
        ∃ t1 u1, y.tets.get l = some t1 ∧ y.tets.get l' = some u1 ∧ Twin t1 e u1 e' := by
      intro l t l' u e e' q1 q2 q3
      obtain ⟨t1, g1, g2, -⟩ := old1 l t q1
      obtain ⟨u1, g3, g4, -⟩ := old1 l' u q2
      refine ⟨t1, u1, g1, g3, ?_⟩
      have := g2 e
      simp only [Tet.tri, Prod.mk.injEq] at this
      rw [Twin, ← g4, q3, this.1, this.2.1, this.2.2]
    have key : ∀ {e}, face e = i → ∃ c', face c' = face c ∧ Twin tk' e tj' c' ∧ tk'.adj e = ⟨j, c'⟩ ∧ tj'.adj c' = ⟨k, e⟩ := fun {e} he =>
      link_face (t := tk') (t' := tj') (k := k) (j := j) (e := fc) (e' := c) htw ak aj (he.trans (Tet.faceCode_face i).symm)
    have key2 : ∀ {c'}, face c' = face c → ∃ e, face e = i ∧ Twin tj' c' tk' e ∧ tj'.adj c' = ⟨k, e⟩ := fun {c'} hc => by
      obtain ⟨e, g1, g2, g3, g4⟩ := link_face (t := tj') (t' := tk') (k := j) (j := k) (e := c) (e' := fc) (Twin.symm htw) aj ak hc
      exact ⟨e, g1.trans (Tet.faceCode_face i), g2, g3⟩
    have m1 : Mid x B k t0 done y1 := by
      refine ⟨h.wfv, (h.wft.modify _ _).modify _ _, h.edges, h.track, h.cen, core1, ?_, ?_, ?_, ?_, h.vat, h.vptr, ?_⟩
      · intro l t e l' u e' n1 n2 q1 q2 q3
        obtain ⟨t1, u1, g1, g2, g3⟩ := twinOld q1 q2 q3
        have old := h.link0 l t1 e l' u1 e' n1 n2 g1 g2 g3
        by_cases hlj : l = j
        · subst hlj
          rw [get1, if_neg n1, if_pos rfl] at q1
          obtain rfl := Option.some.inj q1
          obtain rfl : t1 = t' := Option.some.inj (g1.symm.trans h2)
          by_cases hf : face e = face c
          · exfalso
            obtain ⟨e2, k1, k2, k3⟩ := key2 hf
            have := uniq_twin hu1 q2 (show y1.tets.get k = some tk' by rw [get1, if_pos rfl]) q3 k2
            exact n2 this.1.symm
          · rw [aj' e hf]
            exact old
        · obtain ⟨_, g4, -, g5⟩ := old1 l t q1
          obtain rfl := Option.some.inj (g4.symm.trans g1)
          rw [g5 n1 hlj]
          exact old
      · intro t e l u e' q1 hdn q2 q3
        by_cases hf : face e = i
        · obtain ⟨c', g1, g2, g3, g4⟩ := key hf
          rw [get1, if_pos rfl] at q1
          obtain rfl := Option.some.inj q1
          have hj1 : y1.tets.get j = some tj' := by rw [get1, if_neg hjk, if_pos rfl]
          obtain ⟨rfl, rfl⟩ := uniq_twin hu1 hj1 q2 g2 q3
          obtain rfl := Option.some.inj (q2.symm.trans hj1)
          exact ⟨g3, g4⟩
        · obtain ⟨t1, u1, g1, g2, g3⟩ := twinOld q1 q2 q3
          obtain rfl : t1 = tk := Option.some.inj (g1.symm.trans hk)
          obtain ⟨o1, o2⟩ := h.link1 t1 e l u1 e' g1 hdn g2 g3
          rw [get1, if_pos rfl] at q1
          obtain rfl := Option.some.inj q1
          refine ⟨by rw [ck, if_neg hf]; exact o1, ?_⟩
          have hlk : l ≠ k := by
            rintro rfl
            rw [get1, if_pos rfl] at q2
            obtain rfl := Option.some.inj q2
            exact twin_ne (hdt _ _ hk) e e' q3
          by_cases hlj : l = j
          · subst hlj
            rw [get1, if_neg hlk, if_pos rfl] at q2
            obtain rfl := Option.some.inj q2
            obtain rfl : u1 = t' := Option.some.inj (g2.symm.trans h2)
            by_cases hfe : face e' = face c
            · exfalso
              obtain ⟨e2, k1, k2, k3⟩ := key2 hfe
              have := uniq_twin hu1 (show y1.tets.get k = some tk' by rw [get1, if_pos rfl]) (show y1.tets.get k = some tk' by rw [get1, if_pos rfl]) k2 q3.symm
              exact hf (this.2 ▸ k1)
            · rw [aj' e' hfe]
              exact o2
          · obtain ⟨_, g4, -, g5⟩ := old1 l u q2
            obtain rfl := Option.some.inj (g4.symm.trans g2)
            rw [g5 hlk hlj]
            exact o2
      · intro s w hw
        obtain ⟨t, g1, g2⟩ := h.tsound s w hw
        have : ∃ t2, y1.tets.get w.tet = some t2 ∧ ∀ e, t2.tri e = t.tri e := by
          rw [get1]
          split_ifs with h5 h6
          · rw [h5, hk] at g1
            obtain rfl := Option.some.inj g1
            exact ⟨_, rfl, tk't⟩
          · rw [h6, show y.tets.get j = some t' from h2] at g1
            obtain rfl := Option.some.inj g1
            exact ⟨_, rfl, tj't⟩
          · exact ⟨t, g1, fun _ => rfl⟩
        obtain ⟨t2, k1, k2⟩ := this
        exact ⟨t2, k1, by rw [k2, g2]⟩
      · intro l t e q1 q2
        obtain ⟨t1, g1, g2, -⟩ := old1 l t q1
        rw [g2]
        exact h.tc l t1 e g1 q2
      · simp only [y1, IdMap.size_modify]
        exact h.size
    refine ⟨_, ?_, m1.finish hB hd i ?_⟩
    · rw [Mesh.itFace, ← hfc, hy]
      simp only [Option.bind_eq_bind, Option.bind_some, h1]
      have e1 : y.modTet k (·.setOpp i ⟨j, c⟩) = some { y with tets := y.tets.modify k (·.setOpp i ⟨j, c⟩) } := by
        simp [Mesh.modTet, hk]
      have e2 : Mesh.modTet { y with tets := y.tets.modify k (·.setOpp i ⟨j, c⟩) } j (·.setOpp (face c) (Mesh.unturn c ⟨k, fc⟩)) = some y1 := by
        have : (y.tets.modify k (·.setOpp i ⟨j, c⟩)).get j = some t' := by rw [IdMap.get_modify, if_neg hjk]; exact h2
        simp [Mesh.modTet, this, y1]
      rw [e1]
      simp only [Option.bind_some]
      rw [e2]
      simp only [Option.bind_some]
      rw [show (y1.triInsert (t0.first fc, t0.second fc, t0.third fc) ⟨k, fc⟩).vertices.get (t0.vertices i) = some b from hb]
      rfl
    · intro t e l u e' q1 q2 q3 q4
      obtain ⟨c', g1, g2, g3, g4⟩ := key q2
      rw [get1, if_pos rfl] at q1
      obtain rfl := Option.some.inj q1
      have hj1 : y1.tets.get j = some tj' := by rw [get1, if_neg hjk, if_pos rfl]
      obtain ⟨rfl, rfl⟩ := uniq_twin hu1 hj1 q3 g2 q4
      obtain rfl := Option.some.inj (q3.symm.trans hj1)
      exact ⟨g3, g4⟩


/-! ### The loop over the edges -/

/-- The edges of the mesh and the local map: `N` are the pairs that may be looked up and `Q` those that may be in the mesh. -/
structure EdgesOk (N Q : VId × VId → Prop) (E : IdMap UEdge) (em : Mesh.EdgeMap) : Prop where
  wf : E.WF
  unique : ∀ e e' ue ue', E.get e = some ue → E.get e' = some ue' → ue.vertices = ue'.vertices → e = e'
  sub : ∀ e ue, E.get e = some ue → Q ue.vertices
  ok : ∀ s i, N s → em s = some i → ∃ ue, E.get i = some ue ∧ ue.vertices = s
  all : ∀ e ue, E.get e = some ue → N ue.vertices → em ue.vertices = some e

/-- The mesh while the edges of the new tet `k` are set: those in `done` are. -/
structure EMid (N Q : VId × VId → Prop) (y0 : Mesh P V T) (em0 : Mesh.EdgeMap) (k : TId) (t0 : Tet T) (done : Fin 6 → Prop) (n : Nat)
    (y : Mesh P V T) (em : Mesh.EdgeMap) : Prop where
  rest : { y with tets := y0.tets, edges := y0.edges } = y0
  wft : y.tets.WF
  eok : EdgesOk N Q y.edges em
  other : ∀ j, j ≠ k → y.tets.get j = y0.tets.get j
  new : ∃ t, y.tets.get k = some t ∧ { t with edges := t0.edges } = t0 ∧
    ∀ i, done i → em (sorted2 (t0.edge (Mesh.undirCode i))) = some (t.edges i)
  mono : ∀ s i, em0 s = some i → em s = some i
  eold : ∀ e ue, y0.edges.get e = some ue → y.edges.get e = some ue
  enew : ∀ e ue, y.edges.get e = some ue → y0.edges.get e = some ue ∨ y0.edges.get e = none ∧ ue.locked = false ∧
    ∃ i, ue.vertices = sorted2 (t0.edge (Mesh.undirCode i))
  size : y.edges.size ≤ y0.edges.size + n
  tsize : y.tets.size = y0.tets.size

variable {N Q : VId × VId → Prop} {y0 : Mesh P V T} {em em0 : Mesh.EdgeMap}

theorem EMid.step {done : Fin 6 → Prop} {n : Nat} (h : EMid N Q y0 em0 k t0 done n y em)
    (hN : ∀ i, N (sorted2 (t0.edge (Mesh.undirCode i))) ∧ Q (sorted2 (t0.edge (Mesh.undirCode i))))
    (room : y0.edges.size + n < idMax) (i : Fin 6) :
    ∃ s, Mesh.itEdge k (y, em) i = some s ∧ EMid N Q y0 em0 k t0 (fun f => done f ∨ f = i) (n + 1) s.1 s.2 := by
  obtain ⟨t, ht, hc, hd⟩ := h.new
  have hv : t.vertices = t0.vertices := congrArg (fun z => z.vertices) hc
  have he : y.edge ⟨k, Mesh.undirCode i⟩ = some (t0.edge (Mesh.undirCode i)) := by
    simp [Mesh.edge, ht, Tet.edge, Tet.first, Tet.second, hv]
  set s := sorted2 (t0.edge (Mesh.undirCode i)) with hs
  have modk : ∀ (E : IdMap UEdge) (id : EId), Mesh.modTet { y with edges := E } k (·.setEdge i id) =
      some { y with edges := E, tets := y.tets.modify k (·.setEdge i id) } := by
    intro E id
    simp [Mesh.modTet, ht]
  have getk : ∀ id, (y.tets.modify k (·.setEdge i id)).get k = some (t.setEdge i id) := by
    intro id
    rw [IdMap.get_modify, if_pos rfl, ht]; rfl
  cases hem : em s with
  | some id =>
    refine ⟨({ y with tets := y.tets.modify k (·.setEdge i id) }, em), ?_, ?_⟩
    · simp only [Mesh.itEdge, he, Option.bind_eq_bind, Option.bind_some, ← hs, hem]
      rw [show y.modTet k (·.setEdge i id) = _ from modk y.edges id]
      rfl
    · refine ⟨h.rest, h.wft.modify _ _, h.eok, ?_, ⟨_, getk id, ?_, ?_⟩, h.mono, h.eold, h.enew, ?_, ?_⟩
      · intro j hj
        simp only [IdMap.get_modify, if_neg hj]
        exact h.other j hj
      · rw [← hc]; rfl
      · rintro f hf
        by_cases hfi : f = i
        · subst hfi
          simp only [Tet.setEdge, Function.update_self]
          exact hem
        · simp only [Tet.setEdge, Function.update_of_ne hfi]
          exact hd f (hf.resolve_right hfi)
      · have := h.size
        simp only
        omega
      · simp only [IdMap.size_modify]
        exact h.tsize
  | none =>
    have hr : y.edges.size < idMax := by have := h.size; omega
    obtain ⟨E', id, hE⟩ := IdMap.insert_isSome (v := UEdge.new s) h.eok.wf hr
    obtain ⟨w1, w2, w3, w4, w5⟩ := IdMap.insert_some h.eok.wf hE
    have hsv : (UEdge.new s).vertices = s := by simp [UEdge.new, hs, sorted2_sorted2]
    have hno : ∀ e ue, y.edges.get e = some ue → ue.vertices ≠ s := by
      intro e ue h1 h2
      have := h.eok.all e ue h1 (by rw [h2]; exact (hN i).1)
      rw [h2, hem] at this
      cases this
    refine ⟨({ y with edges := E', tets := y.tets.modify k (·.setEdge i id) }, Function.update em s (some id)), ?_, ?_⟩
    · simp only [Mesh.itEdge, he, Option.bind_eq_bind, Option.bind_some, ← hs, hem, Mesh.insertEdge, hE]
      simp only [pure, Option.bind_some]
      rw [modk E' id]
      rfl
    · have hup : ∀ f, em f ≠ none → Function.update em s (some id) f = em f := by
        intro f hf
        rw [Function.update_of_ne]
        rintro rfl
        exact hf hem
      refine ⟨h.rest, h.wft.modify _ _, ⟨w1, ?_, ?_, ?_, ?_⟩, ?_, ⟨_, getk id, ?_, ?_⟩, ?_, ?_, ?_, ?_, ?_⟩
      · intro e e' ue ue' h1 h2 h3
        rw [w4] at h1 h2
        split_ifs at h1 h2 with h5 h6 h6
        · rw [h5, h6]
        · exact absurd (h3 ▸ (Option.some.inj h1 ▸ hsv : ue.vertices = s)) (hno e' ue' h2)
        · exact absurd (h3.trans (Option.some.inj h2 ▸ hsv : ue'.vertices = s)) (hno e ue h1)
        · exact h.eok.unique e e' ue ue' h1 h2 h3
      · intro e ue h1
        rw [w4] at h1
        split_ifs at h1 with h5
        · rw [← Option.some.inj h1, hsv]
          exact (hN i).2
        · exact h.eok.sub e ue h1
      · intro f j hNf hj
        by_cases hf : f = s
        · subst hf
          simp only [Function.update_self, Option.some.injEq] at hj
          exact ⟨_, by rw [w4, if_pos hj.symm], hsv⟩
        · simp only at hj
          rw [Function.update_of_ne hf] at hj
          obtain ⟨ue, g1, g2⟩ := h.eok.ok f j hNf hj
          refine ⟨ue, ?_, g2⟩
          rw [w4, if_neg]
          · exact g1
          · rintro rfl
            rw [w2] at g1
            cases g1
      · intro e ue h1 h2
        simp only
        rw [w4] at h1
        split_ifs at h1 with h5
        · rw [← Option.some.inj h1, hsv, Function.update_self, h5]
        · rw [hup _ (by rw [h.eok.all e ue h1 h2]; simp)]
          exact h.eok.all e ue h1 h2
      · intro j hj
        simp only [IdMap.get_modify, if_neg hj]
        exact h.other j hj
      · rw [← hc]; rfl
      · intro f hf
        by_cases hfi : f = i
        · subst hfi
          simp only [Tet.setEdge, Function.update_self, ← hs]
        · have := hd f (hf.resolve_right hfi)
          simp only [Tet.setEdge, Function.update_of_ne hfi]
          rw [hup _ (by rw [this]; simp)]
          exact this
      · intro f j hj
        have := h.mono f j hj
        simp only
        rw [hup _ (by rw [this]; simp)]
        exact this
      · intro e ue h1
        have := h.eold e ue h1
        simp only
        rw [w4, if_neg]
        · exact this
        · rintro rfl
          rw [w2] at this
          cases this
      · intro e ue h1
        simp only at h1
        rw [w4] at h1
        split_ifs at h1 with h5
        · right
          obtain rfl := Option.some.inj h1
          refine ⟨?_, rfl, i, hsv⟩
          cases h6 : y0.edges.get e with
          | none => rfl
          | some ue =>
            have := h.eold e ue h6
            rw [h5, w2] at this
            cases this
        · exact h.enew e ue h1
      · have := h.size
        simp only
        omega
      · simp only [IdMap.size_modify]
        exact h.tsize

/-! ### A mesh with a hole -/

/-- A mesh with a hole: part of the tets of `g` are there.  The references of the vertices in `pend` may be wrong. -/
structure Part (g : Mesh P V T) (N Q : VId × VId → Prop) (pend : VId → Prop) (x : Mesh P V T) (em : Mesh.EdgeMap) : Prop where
  wfv : x.vertices.WF
  wft : x.tets.WF
  track : x.trackTriMap = true
  eok : EdgesOk N Q x.edges em
  sub : ∀ k t, x.tets.get k = some t → HasTet g (t.tet 0)
  uniq : TriUniqueT x.tets.get
  link : ∀ j t e j' t' e', x.tets.get j = some t → x.tets.get j' = some t' → Twin t e t' e' → t.adj e = ⟨j', e'⟩
  tsound : ∀ s w, x.triMap s = some w → ∃ t, x.tets.get w.tet = some t ∧ triKey (t.tri w.edge) = s
  tc : ∀ k t e, x.tets.get k = some t → ∃ w, x.triMap (triKey (t.tri e)) = some w
  eptr : ∀ k t e, x.tets.get k = some t → ∃ ue, x.edges.get (t.undirEdge e) = some ue ∧ ue.vertices = sorted2 (t.edge e)
  vref : ∀ v b, x.vertices.get v = some b → pend v ∨ b.tet.tet = idMax ∨ ∃ t, x.tets.get b.tet.tet = some t ∧ t.first b.tet.edge = v
  vlive : ∀ k t i, x.tets.get k = some t → t.vertices i = GHOST ∨ ∃ b, x.vertices.get (t.vertices i) = some b ∧
    (pend (t.vertices i) ∨ b.tet.tet ≠ idMax)


theorem undir_code (t : Tet T) (e : Code) : sorted2 (t.edge (Mesh.undirCode (undirIdx e))) = sorted2 (t.edge e) := by
  have : ∀ e, (firstIdx (Mesh.undirCode (undirIdx e)) = firstIdx e ∧ secondIdx (Mesh.undirCode (undirIdx e)) = secondIdx e) ∨
    (firstIdx (Mesh.undirCode (undirIdx e)) = secondIdx e ∧ secondIdx (Mesh.undirCode (undirIdx e)) = firstIdx e) := by decide
  simp only [Tet.edge, Tet.first, Tet.second]
  rcases this e with ⟨h1, h2⟩ | ⟨h1, h2⟩
  · rw [h1, h2]
  · rw [h1, h2]
    exact (sorted2_eq_iff _ _).2 (.inr rfl)

theorem Part.dist {g x : Mesh P V T} {pend : VId → Prop} (hg : Consistent g) (h : Part g N Q pend x em) : DistinctT x.tets.get := by
  intro k t ht
  obtain ⟨w, hw⟩ := h.sub k t ht
  exact (Tet.inj_iff_nodup t 0).2 (hg.distinct _ _ _ _ _ hw)

theorem codes_same (t : Tet T) (e e' : Code) : SameTet (t.tet e) (t.tet e') :=
  EvenRearr.trans (EvenRearr.symm ((evenRearr_iff _ _).2 ⟨e, t.quad_tet e⟩)) ((evenRearr_iff _ _).2 ⟨e', t.quad_tet e'⟩)

/-- Two tets of `g` with a common oriented triangle are the same. -/
theorem same_of_tri {g : Mesh P V T} (hg : Consistent g) {t t' : Tet T} (h : HasTet g (t.tet 0)) (h' : HasTet g (t'.tet 0)) {e e' : Code}
    (he : t.tri e = t'.tri e') : t.tet e = t'.tet e' := by
  obtain ⟨w, hw⟩ := HasTet.same h (codes_same t 0 e)
  obtain ⟨w', hw'⟩ := HasTet.same h' (codes_same t' 0 e')
  obtain ⟨u, g1, g2⟩ := Mesh.tet4_iff.1 hw
  obtain ⟨u', g3, g4⟩ := Mesh.tet4_iff.1 hw'
  have h1 := he
  simp only [Tet.tet, Tet.tri, Prod.mk.injEq] at g2 g4 h1
  have := hg.toT.tunique _ u w.edge _ u' w'.edge g1 g3 (by
    simp only [Tet.tri, Prod.mk.injEq]
    exact ⟨by rw [g2.1, g4.1, h1.1], by rw [g2.2.1, g4.2.1, h1.2.1], by rw [g2.2.2.1, g4.2.2.1, h1.2.2]⟩)
  obtain ⟨k, c⟩ := w
  obtain ⟨k', c'⟩ := w'
  obtain ⟨rfl, rfl⟩ := this
  exact Option.some.inj (hw.symm.trans hw')

theorem Part.insert {g x : Mesh P V T} {pend : VId → Prop} (hg : Consistent g) (h : Part g N Q pend x em) (fuel : Nat) (q : V4)
    (hq : HasTet g q) (hn : ¬ HasTet x q) (hN : ∀ u ∈ list4 q, ∀ v ∈ list4 q, u ≠ v → N (sorted2 (u, v)) ∧ Q (sorted2 (u, v)))
    (hv : ∀ v ∈ list4 q, ∃ b, x.vertices.get v = some b) (room : x.tets.size < idMax) (eroom : x.edges.size + 6 ≤ idMax) :
    ∃ x' em' k t, Mesh.insertTetAt fuel (x, em) q = some ((x', em'), ⟨k, 3⟩) ∧
      Part g N Q (fun v => pend v ∧ v ∉ list4 q) x' em' ∧
      x'.tets.get k = some t ∧ x.tets.get k = none ∧ t.vertices = ![q.1, q.2.1, q.2.2.1, q.2.2.2] ∧ (∀ f, t.flags.locked f = false) ∧
      (∀ j, j ≠ k → (x'.tets.get j).map bare = (x.tets.get j).map bare) ∧
      (∀ v, (x'.vertices.get v).map unref = (x.vertices.get v).map unref) ∧ x'.center = x.center ∧
      x'.tets.size = x.tets.size + 1 ∧ x'.edges.size ≤ x.edges.size + 6 ∧
      (∀ s i, em s = some i → em' s = some i) ∧ (∀ u ∈ list4 q, ∀ v ∈ list4 q, u ≠ v → ∃ i, em' (sorted2 (u, v)) = some i) ∧
      (∀ e ue, x.edges.get e = some ue → x'.edges.get e = some ue) ∧
      (∀ e ue, x'.edges.get e = some ue → x.edges.get e = some ue ∨ x.edges.get e = none ∧ ue.locked = false ∧
        ∃ u v, u ∈ list4 q ∧ v ∈ list4 q ∧ u ≠ v ∧ ue.vertices = sorted2 (u, v)) := by
  obtain ⟨q0, q1, q2, q3⟩ := q
  let vs : Fin 4 → VId := ![q0, q1, q2, q3]
  let t0 : Tet T := Tet.new vs (fun _ => ⟨idMax, 0⟩) (fun _ => idMax) x.defaultTet
  have hmem : ∀ v, v ∈ list4 (q0, q1, q2, q3) ↔ ∃ i, vs i = v := by
    intro v
    rw [mem_list4]
    constructor
    · rintro ⟨i, hi⟩
      refine ⟨i, hi ▸ ?_⟩
      fin_cases i <;> rfl
    · rintro ⟨i, hi⟩
      refine ⟨i, hi ▸ ?_⟩
      fin_cases i <;> rfl
  have ht0 : t0.tet 3 = (q0, q1, q2, q3) := by
    rfl
  have hinj : Function.Injective vs := by
    obtain ⟨w, hw⟩ := hq
    refine (Tet.inj_iff_nodup t0 3).2 ?_
    have := hg.distinct _ _ _ _ _ hw
    simp only [Tet.tet, Prod.mk.injEq] at ht0
    rw [ht0.1, ht0.2.1, ht0.2.2.1, ht0.2.2.2]
    exact this
  obtain ⟨M, k, hM⟩ := IdMap.insert_isSome (v := t0) h.wft room
  obtain ⟨w1, w2, w3, w4, w5⟩ := IdMap.insert_some h.wft hM
  have hB : M.get k = some t0 := by rw [w4, if_pos rfl]
  have hold : ∀ j, j ≠ k → M.get j = x.tets.get j := fun j hj => by rw [w4, if_neg hj]
  have hlive : ∀ {j t}, x.tets.get j = some t → j ≠ k := by
    rintro j t hj rfl
    rw [w2] at hj
    cases hj
  have hsub0 : HasTet g (t0.tet 0) := HasTet.same (ht0 ▸ hq) (codes_same t0 3 0)
  have hdB : DistinctT M.get := by
    intro j t hj
    rw [w4] at hj
    split_ifs at hj with h5
    · obtain rfl := Option.some.inj hj
      exact hinj
    · exact h.dist hg j t hj
  have huB : TriUniqueT M.get := by
    have key : ∀ {j t e e'}, x.tets.get j = some t → t.tri e ≠ t0.tri e' := by
      intro j t e e' hj he
      have := same_of_tri hg (h.sub j t hj) hsub0 he
      have hx : HasTet x (t.tet e) := ⟨⟨j, e⟩, Mesh.tet4_iff.2 ⟨t, hj, rfl⟩⟩
      rw [this] at hx
      exact hn (ht0 ▸ HasTet.same hx (codes_same t0 e' 3))
    intro j t e j' t' e' h1 h2 h3
    rw [w4] at h1 h2
    split_ifs at h1 h2 with h5 h6 h6
    · obtain rfl := Option.some.inj h1
      obtain rfl := Option.some.inj h2
      refine ⟨h6.trans h5.symm, ?_⟩
      have : ∀ e e', firstIdx e = firstIdx e' → secondIdx e = secondIdx e' → e' = e := by decide
      simp only [Tet.tri, Prod.mk.injEq] at h3
      exact this _ _ (hinj h3.1).symm (hinj h3.2.1).symm
    · obtain rfl := Option.some.inj h1
      exact absurd h3 (key h2)
    · obtain rfl := Option.some.inj h2
      exact absurd h3.symm (key h1)
    · exact h.uniq j t e j' t' e' h1 h2 h3
  let x1 : Mesh P V T := { x with tets := M }
  have m0 : Mid x M.get k t0 (fun _ => False) x1 := by
    refine ⟨h.wfv, w1, rfl, h.track, rfl, fun _ => rfl, ?_, ?_, ?_, ?_, fun _ => rfl, ?_, w5⟩
    · intro j t e j' t' e' n1 n2 h1 h2 h3
      simp only [x1, hold _ n1] at h1
      simp only [x1, hold _ n2] at h2
      exact h.link j t e j' t' e' h1 h2 h3
    · exact fun _ _ _ _ _ _ hf => hf.elim
    · intro s w hw
      obtain ⟨t, g1, g2⟩ := h.tsound s w hw
      exact ⟨t, by simp only [x1]; rw [hold _ (hlive g1)]; exact g1, g2⟩
    · intro j t e h1 h2
      by_cases hj : j = k
      · exact (h2 hj).elim
      · simp only [x1, hold _ hj] at h1
        exact h.tc j t e h1
    · intro v b hb
      exact .inr ⟨fun _ hf => hf.elim, b, hb, rfl⟩
  have hvx : ∀ j, ∃ b, x.vertices.get (t0.vertices j) = some b := fun j => hv _ ((hmem _).2 ⟨j, rfl⟩)
  obtain ⟨y1, e1, m1⟩ := m0.step hB hdB huB 0 hvx fuel
  obtain ⟨y2, e2, m2⟩ := m1.step hB hdB huB 1 hvx fuel
  obtain ⟨y3, e3, m3⟩ := m2.step hB hdB huB 2 hvx fuel
  obtain ⟨y4, e4, m4⟩ := m3.step hB hdB huB 3 hvx fuel
  have m : Mid x M.get k t0 (fun _ => True) y4 := by
    have : (fun f : Fin 4 => ((((False ∨ f = 0) ∨ f = 1) ∨ f = 2) ∨ f = 3)) = fun _ => True := by
      funext f
      fin_cases f <;> simp
    rw [← this]
    exact m4
  clear m0 m1 m2 m3 m4
  obtain ⟨tk, htk, hck⟩ := m.new hB
  have hvk : tk.vertices = vs := congrArg (fun z => z.vertices) hck
  have E0 : EMid N Q y4 em k tk (fun _ => False) 0 y4 em := by
    refine ⟨rfl, m.wft, by rw [m.edges]; exact h.eok, fun _ _ => rfl, ⟨tk, htk, rfl, fun _ hf => hf.elim⟩, fun _ _ h => h, fun _ _ h => h, fun _ _ h => .inl h, le_rfl, rfl⟩
  have hNe : ∀ c, N (sorted2 (tk.edge c)) ∧ Q (sorted2 (tk.edge c)) := by
    intro c
    refine hN _ ((hmem _).2 ⟨firstIdx c, ?_⟩) _ ((hmem _).2 ⟨secondIdx c, ?_⟩) ?_
    · rw [← hvk]; rfl
    · rw [← hvk]; rfl
    · exact (Tet.ne_of_inj (t := tk) (hvk ▸ hinj) c).1
  have esz : y4.edges.size = x.edges.size := by rw [m.edges]
  obtain ⟨⟨z1, a1⟩, f1, E1⟩ := E0.step (fun i => hNe _) (by omega) 0
  obtain ⟨⟨z2, a2⟩, f2, E2⟩ := E1.step (fun i => hNe _) (by omega) 1
  obtain ⟨⟨z3, a3⟩, f3, E3⟩ := E2.step (fun i => hNe _) (by omega) 2
  obtain ⟨⟨z4, a4⟩, f4, E4⟩ := E3.step (fun i => hNe _) (by omega) 3
  obtain ⟨⟨z5, a5⟩, f5, E5⟩ := E4.step (fun i => hNe _) (by omega) 4
  obtain ⟨⟨z, a⟩, f6, E6⟩ := E5.step (fun i => hNe _) (by omega) 5
  have E : EMid N Q y4 em k tk (fun _ => True) 6 z a := by
    have : (fun f : Fin 6 => ((((((False ∨ f = 0) ∨ f = 1) ∨ f = 2) ∨ f = 3) ∨ f = 4) ∨ f = 5)) = fun _ => True := by
      funext f
      fin_cases f <;> simp
    rw [← this]
    exact E6
  clear E0 E1 E2 E3 E4 E5 E6
  obtain ⟨t, ht, hct, hdt⟩ := E.new
  have hvt : t.vertices = vs := (congrArg (fun z => z.vertices) hct).trans hvk
  have hzv : z.vertices = y4.vertices := congrArg (fun z => z.vertices) E.rest
  have hzm : z.triMap = y4.triMap := congrArg (fun z => z.triMap) E.rest
  have htri : ∀ e, t.tri e = tk.tri e := fun e => by simp only [Tet.tri, Tet.first, Tet.second, Tet.third, hvt, hvk]
  have hadj : ∀ e, t.adj e = tk.adj e := fun e => by
    have : t.opp = tk.opp := congrArg (fun z => z.opp) hct
    simp only [Tet.adj, this]
  -- a tet of the result and its origin
  have back : ∀ j u, z.tets.get j = some u → ∃ u', y4.tets.get j = some u' ∧ (∀ e, u.tri e = u'.tri e) ∧ (∀ e, u.adj e = u'.adj e) ∧
      (j ≠ k → u = u') := by
    intro j u hj
    by_cases hjk : j = k
    · subst hjk
      obtain rfl := Option.some.inj (hj.symm.trans ht)
      exact ⟨tk, htk, htri, hadj, fun h => absurd rfl h⟩
    · rw [E.other j hjk] at hj
      exact ⟨u, hj, fun _ => rfl, fun _ => rfl, fun _ => rfl⟩
  have forth : ∀ j u', y4.tets.get j = some u' → ∃ u, z.tets.get j = some u ∧ (∀ e, u.tri e = u'.tri e) ∧ u.vertices = u'.vertices := by
    intro j u hj
    by_cases hjk : j = k
    · subst hjk
      obtain rfl := Option.some.inj (hj.symm.trans htk)
      exact ⟨t, ht, htri, hvt.trans hvk.symm⟩
    · exact ⟨u, by rw [E.other j hjk]; exact hj, fun _ => rfl, rfl⟩
  have fromx : ∀ j u, x.tets.get j = some u → ∃ u', z.tets.get j = some u' ∧ bare u' = bare u := by
    intro j u hj
    have hjk := hlive hj
    have := m.core j
    rw [hold j hjk, hj] at this
    rw [← E.other j hjk] at this
    exact Option.map_eq_some_iff.1 this
  have tox : ∀ j u, j ≠ k → z.tets.get j = some u → ∃ u', x.tets.get j = some u' ∧ bare u' = bare u := by
    intro j u hjk hj
    have := m.core j
    rw [hold j hjk, ← E.other j hjk, hj] at this
    exact Option.map_eq_some_iff.1 this.symm
  have huy := core_uniq m.core huB
  have hdy := core_dist m.core hdB
  refine ⟨z, a, k, t, ?_, ?_, ht, w2, hvt, ?_, ?_, ?_, ?_, ?_, ?_, E.mono, ?_, ?_, ?_⟩
  · have e0 : x.insertTet t0 = some (x1, k) := by
      simp [Mesh.insertTet, hM, x1]
    simp only [Mesh.insertTetAt, Option.bind_eq_bind]
    rw [show x.insertTet (Tet.new ![q0, q1, q2, q3] (fun _ => ⟨idMax, 0⟩) (fun _ => idMax) x.defaultTet) = _ from e0]
    simp only [Option.bind_some, List.foldlM_cons, List.foldlM_nil, Option.bind_eq_bind]
    rw [show Mesh.itFace fuel k ![q0, q1, q2, q3] x1 0 = _ from e1]
    simp only [Option.bind_some]
    rw [show Mesh.itFace fuel k ![q0, q1, q2, q3] y1 1 = _ from e2]
    simp only [Option.bind_some]
    rw [show Mesh.itFace fuel k ![q0, q1, q2, q3] y2 2 = _ from e3]
    simp only [Option.bind_some]
    rw [show Mesh.itFace fuel k ![q0, q1, q2, q3] y3 3 = _ from e4]
    simp only [Option.bind_some, f1, f2, f3, f4, f5, f6, pure]
  · refine ⟨by rw [hzv]; exact m.wfv, E.wft, ?_, E.eok, ?_, ?_, ?_, ?_, ?_, ?_, ?_, ?_⟩
    · exact (congrArg (fun z => z.trackTriMap) E.rest).trans m.track
    · intro j u hj
      by_cases hjk : j = k
      · subst hjk
        obtain rfl := Option.some.inj (hj.symm.trans ht)
        have : u.tet 0 = t0.tet 0 := by simp only [Tet.tet, Tet.first, Tet.second, Tet.third, Tet.fourth, hvt]; rfl
        rw [this]
        exact hsub0
      · obtain ⟨u', g1, g2⟩ := tox j u hjk hj
        have hvv : u'.vertices = u.vertices := congrArg (fun z => z.vertices) g2
        have : u.tet 0 = u'.tet 0 := by simp only [Tet.tet, Tet.first, Tet.second, Tet.third, Tet.fourth, hvv]
        rw [this]
        exact h.sub j u' g1
    · intro j u e j' u' e' h1 h2 h3
      obtain ⟨v, g1, g2, -⟩ := back j u h1
      obtain ⟨v', g3, g4, -⟩ := back j' u' h2
      exact huy j v e j' v' e' g1 g3 (by rw [← g2, ← g4, h3])
    · intro j u e j' u' e' h1 h2 h3
      obtain ⟨v, g1, g2, g2', -⟩ := back j u h1
      obtain ⟨v', g3, g4, g4', -⟩ := back j' u' h2
      have h3' : Twin v e v' e' := by
        have := g2 e
        simp only [Tet.tri, Prod.mk.injEq] at this
        rw [Twin, ← g4, h3, this.1, this.2.1, this.2.2]
      rw [g2']
      by_cases hjk : j = k
      · subst hjk
        obtain rfl := Option.some.inj (htk.symm.trans g1)
        exact (m.link1 _ e j' v' e' g1 trivial g3 h3').1
      · by_cases hjk' : j' = k
        · subst hjk'
          obtain rfl := Option.some.inj (htk.symm.trans g3)
          exact (m.link1 _ e' j v e g3 trivial g1 h3'.symm).2
        · exact m.link0 j v e j' v' e' hjk hjk' g1 g3 h3'
    · intro s w hw
      rw [hzm] at hw
      obtain ⟨u, g1, g2⟩ := m.tsound s w hw
      obtain ⟨u', g3, g4, -⟩ := forth _ _ g1
      exact ⟨u', g3, by rw [g4, g2]⟩
    · intro j u e hj
      obtain ⟨v, g1, g2, -⟩ := back j u hj
      rw [g2, hzm]
      exact m.tc j v e g1 fun _ => trivial
    · intro j u e hj
      by_cases hjk : j = k
      · subst hjk
        obtain rfl := Option.some.inj (hj.symm.trans ht)
        obtain ⟨ue, g1, g2⟩ := E.eok.ok _ _ (hNe _).1 (hdt (undirIdx e) trivial)
        refine ⟨ue, g1, ?_⟩
        rw [g2, undir_code]
        simp only [Tet.edge, Tet.first, Tet.second, hvt, hvk]
      · obtain ⟨u', g1, g2⟩ := tox j u hjk hj
        obtain ⟨ue, g3, g4⟩ := h.eptr j u' e g1
        have hee : u'.edges = u.edges := congrArg (fun z => z.edges) g2
        have hvv : u'.vertices = u.vertices := congrArg (fun z => z.vertices) g2
        refine ⟨ue, E.eold _ _ ?_, ?_⟩
        · rw [m.edges]
          simpa only [Tet.undirEdge, hee] using g3
        · simpa only [Tet.edge, Tet.first, Tet.second, hvv] using g4
    · intro v b hb
      rw [hzv] at hb
      rcases m.vptr v b hb with ⟨c, g1, g2⟩ | ⟨g1, b0, g2, g3⟩
      · refine .inr (.inr ⟨t, by rw [g1]; exact ht, ?_⟩)
        rw [g1]
        simp only [Tet.first, hvt]
        exact g2
      · rcases h.vref v b0 g2 with h5 | h5 | ⟨u, h5, h6⟩
        · exact .inl ⟨h5, fun h7 => by
            obtain ⟨i, hi⟩ := (hmem v).1 h7
            exact g1 i trivial hi⟩
        · exact .inr (.inl (by rw [← g3]; exact h5))
        · obtain ⟨u', g4, g5⟩ := fromx _ _ h5
          refine .inr (.inr ⟨u', by rw [← g3]; exact g4, ?_⟩)
          have hvv : u'.vertices = u.vertices := congrArg (fun z => z.vertices) g5
          rw [← g3]
          simpa only [Tet.first, hvv] using h6
    · intro j u i hj
      rw [hzv]
      by_cases hin : u.vertices i ∈ list4 (q0, q1, q2, q3)
      · right
        obtain ⟨b0, hb0⟩ := hv _ hin
        have := m.vat (u.vertices i)
        rw [hb0] at this
        obtain ⟨b, g1, -⟩ := Option.map_eq_some_iff.1 this
        refine ⟨b, g1, .inr ?_⟩
        obtain ⟨f, hf⟩ := (hmem _).1 hin
        rcases m.vptr _ b g1 with ⟨c, g2, -⟩ | ⟨g2, -⟩
        · rw [g2]
          exact Nat.ne_of_lt w3
        · exact absurd hf (g2 f trivial)
      · have hjk : j ≠ k := by
          rintro rfl
          obtain rfl := Option.some.inj (hj.symm.trans ht)
          exact hin ((hmem _).2 ⟨i, by rw [hvt]⟩)
        obtain ⟨u', g1, g2⟩ := tox j u hjk hj
        have hvv : u'.vertices = u.vertices := congrArg (fun z => z.vertices) g2
        rcases h.vlive j u' i g1 with h5 | ⟨b0, h5, h6⟩
        · exact .inl (by rw [← hvv]; exact h5)
        · rw [hvv] at h5 h6
          have := m.vat (u.vertices i)
          rw [h5] at this
          obtain ⟨b, g3, -⟩ := Option.map_eq_some_iff.1 this
          refine .inr ⟨b, g3, ?_⟩
          rcases h6 with h6 | h6
          · exact .inl ⟨h6, hin⟩
          · right
            rcases m.vptr _ b g3 with ⟨c, g4, -⟩ | ⟨-, b1, g4, g5⟩
            · rw [g4]
              exact Nat.ne_of_lt w3
            · obtain rfl := Option.some.inj (g4.symm.trans h5)
              rw [← g5]
              exact h6
  · intro f
    have h1 : t.flags = tk.flags := congrArg (fun z => z.flags) hct
    have h2 : tk.flags = t0.flags := congrArg (fun z => z.flags) hck
    rw [h1, h2]; rfl
  · intro j hj
    rw [E.other j hj, m.core j, hold j hj]
  · intro v
    rw [hzv]
    exact m.vat v
  · exact (congrArg (fun z => z.center) E.rest).trans m.cen
  · rw [E.tsize, m.size]
  · have := E.size
    omega
  · intro u hu v hv huv
    obtain ⟨i, rfl⟩ := (hmem u).1 hu
    obtain ⟨j, rfl⟩ := (hmem v).1 hv
    have : ∀ i j : Fin 4, i ≠ j → ∃ c, firstIdx c = i ∧ secondIdx c = j := by decide
    obtain ⟨c, rfl, rfl⟩ := this i j (fun h => huv (by rw [h]))
    have h1 := hdt (undirIdx c) trivial
    rw [undir_code] at h1
    simp only [Tet.edge, Tet.first, Tet.second, hvk] at h1
    exact ⟨_, h1⟩
  · intro e ue h1
    exact E.eold e ue (by rw [m.edges]; exact h1)
  · intro e ue h1
    rcases E.enew e ue h1 with h2 | ⟨h2, h3, i, h4⟩
    · exact .inl (by rw [← m.edges]; exact h2)
    · refine .inr ⟨by rw [← m.edges]; exact h2, h3, _, _, (hmem _).2 ⟨firstIdx (Mesh.undirCode i), rfl⟩, (hmem _).2 ⟨secondIdx (Mesh.undirCode i), rfl⟩, ?_, ?_⟩
      · intro h5
        have : ∀ i, firstIdx (Mesh.undirCode i) ≠ secondIdx (Mesh.undirCode i) := by decide
        exact this i (hinj h5)
      · rw [h4]
        simp only [Tet.edge, Tet.first, Tet.second, hvk]

end Tet
