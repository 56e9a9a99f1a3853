import Verif.Proofs.FanClash
import Verif.Proofs.HullCount
import Verif.Props.Recover
import Verif.Props.FlipLaws
import Verif.Spec.Tiling
import Mathlib.LinearAlgebra.Pi

/-!
# Flips of tets that fill space
-/

namespace Tet
open Spec Vec4
variable {K V T : Type} [Field K] [LinearOrder K] [IsStrictOrderedRing K]

/-- Homogeneous coordinates. -/
def hom (p : Pt K) : Vec4 K := ![p.x, p.y, p.z, 1]

/-- Homogeneous coordinates of the vertices; the ghost vertex is opposite to the center. -/
def homv (m : Mesh (Pt K) V T) (v : VId) : Vec4 K :=
  if v = GHOST then -hom m.center else hom ((m.idx v).getD ⟨0, 0, 0⟩)

/-- The last coordinate. -/
def last4 : Vec4 K →ₗ[K] K := LinearMap.proj 3

omit [LinearOrder K] [IsStrictOrderedRing K] in
theorem det_hom (a b c d : Pt K) : det (hom a) (hom b) (hom c) (hom d) = orient3d a b c d := by
  simp only [det, det3, hom, orient3d, Pt.sub, Pt.dot, Pt.cross, Matrix.cons_val_zero, Matrix.cons_val_one, Matrix.cons_val]
  ring

omit [LinearOrder K] [IsStrictOrderedRing K] in
theorem homv_of {m : Mesh (Pt K) V T} {v : VId} {p : Pt K} (h : m.idxOri v = some p) :
    homv m v = (if v = GHOST then (-1 : K) else 1) • hom p := by
  unfold Mesh.idxOri at h
  unfold homv
  split_ifs at h ⊢ with hv
  · cases h
    module
  · rw [h, one_smul]
    rfl

theorem homv_solids (m : Mesh (Pt K) V T) : Solids (homv m) last4 := by
  intro v hv
  simp [homv, hv, last4, hom]

omit [LinearOrder K] [IsStrictOrderedRing K] in
theorem det_smul4 (k1 k2 k3 k4 : K) (a b c d : Vec4 K) :
    det (k1 • a) (k2 • b) (k3 • c) (k4 • d) = k1 * k2 * k3 * k4 * det a b c d := by
  simp only [det, det3, Pi.smul_apply, smul_eq_mul]
  ring

omit [LinearOrder K] [IsStrictOrderedRing K] in
theorem det_eq0 {a b c d : Vec4 K} (h : a = b ∨ a = c ∨ a = d ∨ b = c ∨ b = d ∨ c = d) : det a b c d = 0 := by
  rcases h with rfl | rfl | rfl | rfl | rfl | rfl <;> simp only [det, det3] <;> ring

omit [IsStrictOrderedRing K] in
theorem orient_D {m : Mesh (Pt K) V T} {a b c d : VId} {s : K} (h : m.orient a b c d = some s) :
    D (homv m) (a, b, c, d) = s := by
  unfold Mesh.orient at h
  obtain ⟨pa, ha, h⟩ := Option.bind_eq_some_iff.1 h
  obtain ⟨pb, hb, h⟩ := Option.bind_eq_some_iff.1 h
  obtain ⟨pc, hc, h⟩ := Option.bind_eq_some_iff.1 h
  obtain ⟨pd, hd, h⟩ := Option.bind_eq_some_iff.1 h
  cases h
  rw [← det_hom]
  have same : ∀ {u v : VId} {p q : Pt K}, m.idxOri u = some p → m.idxOri v = some q → u = v → hom p = hom q := by
    rintro u v p q h1 h2 rfl
    rw [h1] at h2
    rw [Option.some.inj h2]
  simp only [D]
  rw [homv_of ha, homv_of hb, homv_of hc, homv_of hd, det_smul4, Mesh.ghostSign]
  by_cases h2 : a = b ∨ a = c ∨ a = d ∨ b = c ∨ b = d ∨ c = d
  · rw [det_eq0 (a := hom pa) (b := hom pb) (c := hom pc) (d := hom pd), mul_zero, mul_zero]
    rcases h2 with h | h | h | h | h | h
    · exact .inl (same ha hb h)
    · exact .inr (.inl (same ha hc h))
    · exact .inr (.inr (.inl (same ha hd h)))
    · exact .inr (.inr (.inr (.inl (same hb hc h))))
    · exact .inr (.inr (.inr (.inr (.inl (same hb hd h)))))
    · exact .inr (.inr (.inr (.inr (.inr (same hc hd h)))))
  · congr 1
    push Not at h2
    obtain ⟨h2, h3, h4, h5, h6, h7⟩ := h2
    by_cases ga : a = GHOST
    · subst ga
      simp [h2.symm, h3.symm, h4.symm]
    · by_cases gb : b = GHOST
      · subst gb
        simp [ga, h5.symm, h6.symm]
      · by_cases gc : c = GHOST
        · subst gc
          simp [ga, gb, h7.symm]
        · by_cases gd : d = GHOST
          · subst gd
            simp [ga, gb, gc]
          · simp [ga, gb, gc, gd, Ne.symm ga, Ne.symm gb, Ne.symm gc, Ne.symm gd]

omit [IsStrictOrderedRing K] in
theorem faceSide_F {m : Mesh (Pt K) V T} {a b c : VId} (d : VId) {p : Pt K} {s : K} (h : FaceSide m (a, b, c) p s) :
    F (homv m) (a, b, c, d) (hom p) = s := by
  obtain ⟨pa, pb, pc, ha, hb, hc, rfl⟩ := h
  rw [← det_hom]
  have same : ∀ {u v : VId} {p q : Pt K}, m.idxOri u = some p → m.idxOri v = some q → u = v → hom p = hom q := by
    rintro u v p q h1 h2 rfl
    rw [h1] at h2
    rw [Option.some.inj h2]
  simp only [F, fun3_apply] at ha hb hc ⊢
  rw [homv_of ha, homv_of hb, homv_of hc, ← one_smul K (hom p), det_smul4, one_smul, Mesh.ghostSign]
  by_cases h2 : a = b ∨ a = c ∨ b = c
  · rw [det_eq0 (a := hom pa) (b := hom pb) (c := hom pc), mul_zero, mul_zero]
    rcases h2 with h | h | h
    · exact .inl (same ha hb h)
    · exact .inr (.inl (same ha hc h))
    · exact .inr (.inr (.inr (.inl (same hb hc h))))
  · congr 1
    push Not at h2
    obtain ⟨h2, h3, h5⟩ := h2
    by_cases ga : a = GHOST
    · subst ga
      simp [h2.symm, h3.symm]
    · by_cases gb : b = GHOST
      · subst gb
        simp [ga, h5.symm]
      · by_cases gc : c = GHOST
        · subst gc
          simp [ga, gb]
        · simp [ga, gb, gc, Ne.symm ga, Ne.symm gb, Ne.symm gc]

/-- All vertices of tets have positions. -/
def Placed (m : Mesh (Pt K) V T) : Prop := ∀ a b c d, HasTet m (a, b, c, d) → ∃ p, m.idxOri a = some p

omit [LinearOrder K] [IsStrictOrderedRing K] in
theorem ConsistentT.placed {m : Mesh (Pt K) V T} (hm : ConsistentT m) : Placed m := by
  rintro a b c d ⟨w, hw⟩
  unfold Mesh.idxOri Mesh.idx
  rcases hm.toSpec.vertexLive w a (tet4_parts hw).1 with h | ⟨x, hx, -⟩
  · exact ⟨m.center, by simp [h]⟩
  · by_cases hg : a = GHOST
    · exact ⟨m.center, by simp [hg]⟩
    · exact ⟨x.position, by rw [if_neg hg, hx]; rfl⟩

omit [LinearOrder K] [IsStrictOrderedRing K] in
theorem Placed.four {m : Mesh (Pt K) V T} (hm : Placed m) {a b c d : VId} (h : HasTet m (a, b, c, d)) :
    ∃ pa pb pc pd, m.idxOri a = some pa ∧ m.idxOri b = some pb ∧ m.idxOri c = some pc ∧ m.idxOri d = some pd := by
  obtain ⟨pa, ha⟩ := hm _ _ _ _ h
  obtain ⟨pb, hb⟩ := hm b a d c (HasTet.same h (mem_twelve.1 (by simp [twelve])))
  obtain ⟨pc, hc⟩ := hm c d a b (HasTet.same h (mem_twelve.1 (by simp [twelve])))
  obtain ⟨pd, hd⟩ := hm d c b a (HasTet.same h (mem_twelve.1 (by simp [twelve])))
  exact ⟨pa, pb, pc, pd, ha, hb, hc, hd⟩

omit [LinearOrder K] [IsStrictOrderedRing K] in
theorem Placed.orient {m : Mesh (Pt K) V T} (hm : Placed m) {a b c d : VId} (h : HasTet m (a, b, c, d)) :
    ∃ s, m.orient a b c d = some s := by
  obtain ⟨pa, pb, pc, pd, ha, hb, hc, hd⟩ := hm.four h
  exact ⟨_, by unfold Mesh.orient; rw [ha, hb, hc, hd]; rfl⟩

omit [IsStrictOrderedRing K] in
theorem Placed.face {m : Mesh (Pt K) V T} (hm : Placed m) {a b c d : VId} (h : HasTet m (a, b, c, d)) (p : Pt K) :
    FaceSide m (a, b, c) p (F (homv m) (a, b, c, d) (hom p)) := by
  obtain ⟨pa, pb, pc, pd, ha, hb, hc, hd⟩ := hm.four h
  have : FaceSide m (a, b, c) p (Mesh.ghostSign [a, b, c] * orient3d pa pb pc p) := ⟨pa, pb, pc, ha, hb, hc, rfl⟩
  rwa [← faceSide_F d this] at this

omit [IsStrictOrderedRing K] in
theorem Placed.within {m : Mesh (Pt K) V T} (hm : Placed m) {q : V4} (h : HasTet m q) (p : Pt K) :
    Within m q p ↔ Cell (homv m) q (hom p) := by
  rw [Cell_iff]
  constructor
  · rintro hw ⟨a, b, c, d⟩ hs
    obtain ⟨s, h1, h2⟩ := hw a b c d hs
    rwa [faceSide_F d h1]
  · intro hc a b c d hs
    exact ⟨_, hm.face (HasTet.same h hs) p, hc _ hs⟩

omit [IsStrictOrderedRing K] in
theorem Placed.offPlanes {m : Mesh (Pt K) V T} (hm : Placed m) (p : Pt K) :
    OffPlanes m p ↔ Free (homv m) (HasTet m) (hom p) := by
  constructor
  · rintro ho ⟨a, b, c, d⟩ hq h0
    have := hm.face hq p
    rw [h0] at this
    exact ho _ (hasTri_iff.2 ⟨d, hq⟩) this
  · rintro hf ⟨a, b, c⟩ ht h0
    obtain ⟨d, hq⟩ := hasTri_iff.1 ht
    exact hf _ hq (faceSide_F d h0)

theorem tets_finite {P : Type} (m : Mesh P V T) : {q | HasTet m q}.Finite := by
  refine ((live_finite m).image fun w => (m.tet4 w).getD (0, 0, 0, 0)).subset ?_
  rintro ⟨a, b, c, d⟩ ⟨w, hw⟩
  refine ⟨w, live_iff.2 ⟨a, b, c, d, hw⟩, ?_⟩
  simp only [hw, Option.getD_some]

theorem tiles_iff {m : Mesh (Pt K) V T} (hm : Placed m) : Tiles m ↔ Fan (homv m) last4 (HasTet m) := by
  constructor
  · intro ht
    refine ⟨fun p q h hs => HasTet.same h hs, tets_finite m, ?_, ?_⟩
    · rintro ⟨a, b, c, d⟩ hq
      obtain ⟨s, h1, h2⟩ := ht.positive _ _ _ _ hq
      rwa [orient_D h1]
    · intro x hx hf
      have hx : 0 < x 3 := hx
      obtain ⟨p, hp⟩ : ∃ p : Pt K, x = x 3 • hom p := by
        refine ⟨⟨x 0 / x 3, x 1 / x 3, x 2 / x 3⟩, ?_⟩
        funext i
        fin_cases i <;> simp [hom, mul_div_cancel₀, hx.ne']
      have hF : ∀ q, F (homv m) q x = x 3 * F (homv m) q (hom p) := by
        intro q
        conv_lhs => rw [hp]
        rw [map_smul, smul_eq_mul]
      have hC : ∀ q, Cell (homv m) q x ↔ Cell (homv m) q (hom p) := by
        intro q
        rw [Cell_iff, Cell_iff]
        exact forall_congr' fun r => imp_congr_right fun _ => by rw [hF, mul_pos_iff_of_pos_left hx]
      have ho : OffPlanes m p := (hm.offPlanes p).2 fun q hq h0 => hf q hq (by rw [hF, h0, mul_zero])
      obtain ⟨q, h1, h2⟩ := ht.covered p ho
      refine ⟨q, h1, (hC q).2 ((hm.within h1 p).1 h2), fun q' h3 h4 => ht.once p ho q q' h1 h3 h2 ?_⟩
      exact (hm.within h3 p).2 ((hC q').1 h4)
  · intro hf
    refine ⟨?_, ?_, ?_⟩
    · intro a b c d hq
      obtain ⟨s, hs⟩ := hm.orient hq
      exact ⟨s, hs, by rw [← orient_D hs]; exact hf.pos _ hq⟩
    · intro p ho
      obtain ⟨q, h1, h2, -⟩ := hf.once (hom p) (by simp [last4, hom]) ((hm.offPlanes p).1 ho)
      exact ⟨q, h1, (hm.within h1 p).2 h2⟩
    · intro p ho q q' h1 h2 h3 h4
      exact hf.two (by simp [last4, hom]) ((hm.offPlanes p).1 ho) h1 h2 ((hm.within h1 p).1 h3) ((hm.within h2 p).1 h4)

theorem Spec.Tiles.fan {m : Mesh (Pt K) V T} (hm : ConsistentT m) (ht : Tiles m) : Tet.Fan (homv m) last4 (HasTet m) :=
  (tiles_iff hm.placed).1 ht

omit [LinearOrder K] [IsStrictOrderedRing K] in
theorem homv_same {m m' : Mesh (Pt K) V T} (h : SameVertices m m') : homv m' = homv m := by
  funext v
  unfold homv
  have h1 : m'.idx v = m.idx v := by
    have := congrArg (Option.map (·.1)) (h.1 v)
    rw [Option.map_map, Option.map_map] at this
    exact this
  rw [h1, h.2.1]

/-- The same vertices and tets. -/
theorem Spec.Tiles.of_same {m m' : Mesh (Pt K) V T} (ht : Tiles m) (hm : ConsistentT m) (hm' : ConsistentT m')
    (hv : SameVertices m m') (hq : ∀ q, HasTet m' q ↔ HasTet m q) : Tiles m' := by
  rw [tiles_iff hm'.placed, homv_same hv, show HasTet m' = HasTet m from funext fun q => propext (hq q)]
  exact ht.fan hm

omit [IsStrictOrderedRing K] in
theorem positive_D {m : Mesh (Pt K) V T} {q : V4} (h : Mesh.positive m q = true) : 0 < D (homv m) q := by
  obtain ⟨a, b, c, d⟩ := q
  unfold Mesh.positive at h
  simp only at h
  split at h
  · cases h
  · rename_i s hs
    rw [orient_D hs]
    exact of_decide_eq_true h

/-- The tets at a place for a flip. -/
theorem Spec.FlipAt.tets {P : Type} {m : Mesh P V T} (hm : ConsistentT m) {old new taken r} (h : FlipAt m old new taken r) :
    ∀ q ∈ old, HasTet m q := by
  cases h with
  | @flip23 w o a b c d e tet adj beyond tri =>
    obtain ⟨o', ho, htri⟩ := hm.adj_tri (tet4_parts tet).2.2.2
    rw [adj] at ho
    cases ho
    obtain ⟨e', ho⟩ := tri_tet4 htri
    rw [(tet4_parts ho).2.1] at beyond
    cases beyond
    simp only [List.forall_mem_cons]
    exact ⟨⟨w, tet⟩, ⟨o, ho⟩, by simp⟩
  | @flip32 w o1 o2 x y c d e tet s1 s2 s3 third edge tris =>
    obtain ⟨e', k1⟩ := hm.ring_tet4 tet s1
    rw [(tet4_parts k1).2.1] at third
    cases third
    obtain ⟨f, k2⟩ := hm.ring_tet4 k1 s2
    obtain ⟨g, k3⟩ := hm.ring_tet4 k2 s3
    rw [tet] at k3
    cases k3
    simp only [List.forall_mem_cons]
    exact ⟨⟨w, tet⟩, ⟨o1, k1⟩, ⟨o2, k2⟩, by simp⟩
  | @flip44 w a1 a2 a3 x y p q r s tet s1 s2 s3 s4 ne third fourth edge tris =>
    obtain ⟨r', k1⟩ := hm.ring_tet4 tet s1
    rw [(tet4_parts k1).2.1] at third
    cases third
    obtain ⟨s', k2⟩ := hm.ring_tet4 k1 s2
    rw [(tet4_parts k2).2.1] at fourth
    cases fourth
    obtain ⟨f, k3⟩ := hm.ring_tet4 k2 s3
    obtain ⟨g, k4⟩ := hm.ring_tet4 k3 s4
    rw [tet] at k4
    cases k4
    simp only [List.forall_mem_cons]
    exact ⟨⟨w, tet⟩, ⟨a1, k1⟩, ⟨a2, k2⟩, ⟨a3, k3⟩, by simp⟩

theorem Spec.Tiles.no_clash {m : Mesh (Pt K) V T} (hm : ConsistentT m) (ht : Tiles m) {old new taken r}
    (h : FlipAt m old new taken r) (hp : ∀ q ∈ new, Mesh.positive m q = true) : ¬ taken := by
  have hf := ht.fan hm
  have hs := homv_solids m
  have hold := h.tets hm
  have hn : ∀ q ∈ new, 0 < D (homv m) q := fun q hq => positive_D (hp q hq)
  intro htk
  cases h with
  | @flip23 w o a b c d e tet adj beyond tri =>
    rcases htk with rfl | htk
    · exact (D_nodup (hn (b, a, d, d) (by simp)).ne').2.2.2.2.2 rfl
    · obtain ⟨u, v, huv⟩ := hm.hasEdge_tet.1 htk
      exact hf.clash23 hs (hold (a, b, c, d) (by simp)) (hold (b, a, c, e) (by simp)) (hn (b, a, d, e) (by simp))
        (hn (a, c, d, e) (by simp)) (hn (c, b, d, e) (by simp)) huv
  | @flip32 w o1 o2 x y c d e tet s1 s2 s3 third edge tris =>
    obtain ⟨v, hv⟩ := hasTri_iff.1 htk
    exact hf.clash32 hs (hold (x, y, c, d) (by simp)) (hold (x, y, d, e) (by simp)) (hold (x, y, e, c) (by simp))
      (hn (d, c, e, x) (by simp)) (hn (c, d, e, y) (by simp)) hv
  | @flip44 w a1 a2 a3 x y p q r s tet s1 s2 s3 s4 ne third fourth edge tris =>
    obtain ⟨u, v, huv⟩ := hm.hasEdge_tet.1 htk
    exact hf.clash44 hs (hold (x, y, p, q) (by simp)) (hold (x, y, q, r) (by simp)) (hold (x, y, r, s) (by simp))
      (hold (x, y, s, p) (by simp)) (hn (r, p, q, y) (by simp)) (hn (r, p, y, s) (by simp)) (hn (r, p, s, x) (by simp))
      (hn (r, p, x, q) (by simp)) (HasTet.same huv (q := (r, p, v, u)) (mem_twelve.1 (by simp [twelve])))

theorem Spec.Tiles.flip {m m' : Mesh (Pt K) V T} (hm : ConsistentT m) (ht : Tiles m) {old new taken r}
    (h : FlipAt m old new taken r) (hp : ∀ q ∈ new, Mesh.positive m q = true) (hd : FlipDone m m' old new) : Tiles m' := by
  have hf := ht.fan hm
  have hold := h.tets hm
  have hn : ∀ q ∈ new, 0 < D (homv m) q := fun q hq => positive_D (hp q hq)
  rw [tiles_iff hd.cons.placed, homv_same hd.verts]
  have hrep := hd.rep.2
  cases h with
  | @flip23 w o a b c d e tet adj beyond tri =>
    exact hf.flip23 (hold (a, b, c, d) (by simp)) (hold (b, a, c, e) (by simp)) hrep hn
  | @flip32 w o1 o2 x y c d e tet s1 s2 s3 third edge tris =>
    exact hf.flip32 (hold (x, y, c, d) (by simp)) (hold (x, y, d, e) (by simp)) (hold (x, y, e, c) (by simp)) hrep hn
  | @flip44 w a1 a2 a3 x y p q r s tet s1 s2 s3 s4 ne third fourth edge tris =>
    exact hf.flip44 (hold (x, y, p, q) (by simp)) (hold (x, y, q, r) (by simp)) (hold (x, y, r, s) (by simp))
      (hold (x, y, s, p) (by simp)) hrep hn

/-! ## Room -/

/-- Edges are counted by their end points. -/
theorem edges_count {P : Type} {m : Mesh P V T} (hm : ConsistentT m) :
    m.edges.size = {r : VId × VId | r.1 ≤ r.2 ∧ HasEdge m r.1 r.2}.ncard := by
  classical
  obtain ⟨S, h1, h2⟩ := IdMap.keys_list hm.stored.2.1
  let f : Nat → VId × VId := fun e => ((m.edges.get e).map (·.vertices)).getD (0, 0)
  have hf : ∀ {e ue}, m.edges.get e = some ue → f e = ue.vertices := fun h => by simp only [f, h, Option.map_some, Option.getD_some]
  have hset : {r : VId × VId | r.1 ≤ r.2 ∧ HasEdge m r.1 r.2} = ↑(S.image f) := by
    ext ⟨a, b⟩
    simp only [Set.mem_setOf_eq, Finset.coe_image, Set.mem_image, Finset.mem_coe]
    constructor
    · rintro ⟨hab, e, ue, k1, k2⟩
      refine ⟨e, (h2 e).2 (by rw [k1]; rfl), ?_⟩
      rw [hf k1, k2, min_eq_left hab, max_eq_right hab]
    · rintro ⟨e, he, hfe⟩
      obtain ⟨ue, hue⟩ := Option.isSome_iff_exists.1 ((h2 e).1 he)
      rw [hf hue] at hfe
      obtain ⟨k, t, i, k1, k2⟩ := hm.eused e ue hue
      obtain ⟨ue', k3, k4⟩ := hm.eptr k t i k1
      rw [k2, hue] at k3
      cases k3
      rw [k4, ← min_max_sorted2] at hfe
      obtain ⟨rfl, rfl⟩ := Prod.mk.inj hfe
      refine ⟨min_le_max, e, ue, hue, ?_⟩
      rw [k4, ← min_max_sorted2, min_eq_left min_le_max, max_eq_right min_le_max]
  rw [hset, Set.ncard_coe_finset, Finset.card_image_of_injOn, h1]
  intro e he e' he' heq
  obtain ⟨ue, hue⟩ := Option.isSome_iff_exists.1 ((h2 e).1 he)
  obtain ⟨ue', hue'⟩ := Option.isSome_iff_exists.1 ((h2 e').1 he')
  rw [hf hue, hf hue'] at heq
  exact hm.eunique e e' ue ue' hue hue' heq

theorem vertices_count {P : Type} {m m' : Mesh P V T} (hm : ConsistentT m) (hm' : ConsistentT m') (h : SameVertices m m') :
    m'.vertices.size = m.vertices.size := by
  obtain ⟨S, h1, h2⟩ := IdMap.keys_list hm.stored.1
  obtain ⟨S', h1', h2'⟩ := IdMap.keys_list hm'.stored.1
  rw [← h1, ← h1']
  congr 1
  ext j
  rw [h2, h2', ← Option.isSome_map (f := fun x => (x.position, x.value, x.flags)), h.1 j, Option.isSome_map]

/-- Along flips and locks, the difference of the numbers of tets and edges does not change. -/
theorem run_counts {P : Type} {pos : Mesh P V T → V4 → Bool} {m m' : Mesh P V T} (h : RecoverRun pos m m') (hm : ConsistentT m) :
    m'.tets.size + m.edges.size = m.tets.size + m'.edges.size := by
  induction h with
  | refl m => rfl
  | @flip m m1 m2 old new h1 h2 _ ih =>
    have hd := h1.done hm
    have ih := ih hd.cons
    obtain ⟨nT', nE', k1, k2, -, -, -, k3⟩ := C24_counts hm.toSpec hd.step (numTets_of hm rfl) (numEdges_of hm rfl)
    have e1 := numTets_eq hd.cons k1
    have e2 := numEdges_eq hd.cons k2
    have hu : usedVertices m1 = usedVertices m := by
      unfold usedVertices
      congr 1
      ext v
      exact hd.inMesh v
    omega
  | @lock m m1 m2 h1 _ ih =>
    have hm1 := h1.consistent.toT
    have ih := ih hm1
    have e1 := hm.triangles
    have e2 := hm1.triangles
    have h3 : ∀ a b c, HasTri m1 (a, b, c) ↔ HasTri m (a, b, c) := by
      intro a b c
      rw [hasTri_iff, hasTri_iff]
      exact exists_congr fun d => h1.tets _
    have h4 : ∀ a b, HasEdge m1 a b ↔ HasEdge m a b := by
      intro a b
      rw [hm1.hasEdge_tet, hm.hasEdge_tet]
      exact exists_congr fun c => exists_congr fun d => h1.tets _
    have e3 : triangles m1 = triangles m := by
      unfold triangles
      simp only [h3]
    have e4 : m1.edges.size = m.edges.size := by
      rw [edges_count hm1, edges_count hm]
      simp only [h4]
    omega

theorem Spec.Tiles.oriented {m : Mesh (Pt K) V T} (hm : ConsistentT m) (ht : Tiles m) : Oriented Mesh.positive m := by
  intro a b c d hq
  have hf := ht.fan hm
  have h0 := hf.pos _ hq
  have hsw : D (homv m) (a, b, d, c) = -D (homv m) (a, b, c, d) := swap2 ..
  constructor
  · rw [Bool.eq_false_iff]
    intro hp
    have := positive_D hp
    linarith
  · intro hq'
    have := hf.pos _ hq'
    linarith

/-- Flips to positive tets and locks keep tilings. -/
theorem Spec.Tiles.run {m m' : Mesh (Pt K) V T} (hr : RecoverRun Mesh.positive m m') (hm : ConsistentT m) (ht : Tiles m) :
    Tiles m' := by
  induction hr with
  | refl m => exact ht
  | @flip m m1 m2 old new h1 h2 _ ih =>
    have hd := h1.done hm
    obtain ⟨taken, ws, h3, -, -⟩ := h1
    exact ih hd.cons (ht.flip hm h3 h2 hd)
  | @lock m m1 m2 h1 _ ih =>
    exact ih h1.consistent.toT (ht.of_same hm h1.consistent.toT h1.vertices h1.tets)

theorem Spec.Tiles.ready {m : Mesh (Pt K) V T} (hm : Consistent m) (ht : Tiles m) (htrack : m.trackTriMap = true)
    (hroom : Spacious m) : RecoverReady Mesh.positive m := by
  have hT := hm.toT
  refine ⟨hm, htrack, C46_orient m, ht.oriented hT, fun m1 hr => ?_⟩
  obtain ⟨k1, k2, -, -⟩ := run_keeps hr hT (C46_orient m) (ht.oriented hT)
  rintro (⟨old, new, ⟨taken, r, h1, h2⟩, h3⟩ | hno)
  · exact (Tiles.run hr hT ht).no_clash k1 h1 h3 h2
  · obtain ⟨nV, nT, h1, h2, h3⟩ := hroom
    refine hno ⟨m1.tets.size, m1.edges.size, numTets_of k1 rfl, numEdges_of k1 rfl, ?_⟩
    have e1 := run_counts hr hT
    have e2 := numTets_eq hT h2
    have hV : m1.numVertices = some nV := by
      rw [Mesh.numVertices, k1.stored.1.len_eq, vertices_count hT k1 k2, ← hT.stored.1.len_eq]
      exact h1
    have e3 := edges_le k1.toSpec hV (numEdges_of k1 rfl)
    omega

end Tet
