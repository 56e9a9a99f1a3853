import Verif.Proofs.DelaunayHull

/-!
# Inserting a vertex into a Delaunay mesh
-/

namespace Tet
open Spec Vec5
variable {V T : Type} {K H : Type} [Field K] [LinearOrder K] [IsStrictOrderedRing K]
variable {m m' : Mesh (Pt K) V T} {id : VId} {E : List TId} {B : List Walker}

theorem perp1 (u : Pt K) : ∃ n : Pt K, n ≠ ⟨0, 0, 0⟩ ∧ n.dot u = 0 := by
  by_cases h : u.x = 0
  · exact ⟨⟨1, 0, 0⟩, by simp [Pt.ext_iff], by simp [Pt.dot, h]⟩
  · exact ⟨⟨-u.y, u.x, 0⟩, by simp [Pt.ext_iff, h], by simp [Pt.dot]; ring⟩

theorem perp_parallel {u w n : Pt K} (hu : u ≠ ⟨0, 0, 0⟩) (hc : u.cross w = ⟨0, 0, 0⟩) (hn : n.dot u = 0) : n.dot w = 0 := by
  have h0 : u.norm2 ≠ 0 := (norm2_pos hu).ne'
  have : u.norm2 * n.dot w = u.dot w * n.dot u - n.dot (u.cross (u.cross w)) := by
    simp only [Pt.norm2, Pt.dot, Pt.cross]; ring
  rw [hc, hn] at this
  simp only [Pt.dot, Pt.cross, mul_zero, sub_self, add_zero] at this
  exact (mul_eq_zero.1 this).resolve_left h0

theorem perp2 (u w : Pt K) : ∃ n : Pt K, n ≠ ⟨0, 0, 0⟩ ∧ n.dot u = 0 ∧ n.dot w = 0 := by
  by_cases hc : u.cross w = ⟨0, 0, 0⟩
  · by_cases hu : u = ⟨0, 0, 0⟩
    · obtain ⟨n, h1, h2⟩ := perp1 w
      exact ⟨n, h1, by rw [hu]; simp [Pt.dot], h2⟩
    · obtain ⟨n, h1, h2⟩ := perp1 u
      exact ⟨n, h1, h2, perp_parallel hu hc h2⟩
  · exact ⟨_, hc, by simp only [Pt.dot, Pt.cross]; ring, by simp only [Pt.dot, Pt.cross]; ring⟩

theorem orient_coplanar {a b c d : Pt K} (h : orient3d a b c d = 0) : Coplanar [a, b, c, d] := by
  have key : ∃ n : Pt K, n ≠ ⟨0, 0, 0⟩ ∧ n.dot (b.sub a) = 0 ∧ n.dot (c.sub a) = 0 ∧ n.dot (d.sub a) = 0 := by
    by_cases hc : (b.sub a).cross (c.sub a) = ⟨0, 0, 0⟩
    · by_cases hu : b.sub a = ⟨0, 0, 0⟩
      · obtain ⟨n, h1, h2, h3⟩ := perp2 (c.sub a) (d.sub a)
        exact ⟨n, h1, by rw [hu]; simp [Pt.dot], h2, h3⟩
      · obtain ⟨n, h1, h2, h3⟩ := perp2 (b.sub a) (d.sub a)
        exact ⟨n, h1, h2, perp_parallel hu hc h2, h3⟩
    · refine ⟨_, hc, by simp only [Pt.dot, Pt.cross]; ring, by simp only [Pt.dot, Pt.cross]; ring, ?_⟩
      have : ((b.sub a).cross (c.sub a)).dot (d.sub a) = -orient3d a b c d := by
        simp only [orient3d, Pt.dot, Pt.cross, Pt.sub]; ring
      rw [this, h, neg_zero]
  obtain ⟨n, h0, h1, h2, h3⟩ := key
  have hs : ∀ x : Pt K, n.dot (x.sub a) = n.dot x - n.dot a := fun x => by simp only [Pt.dot, Pt.sub]; ring
  rw [hs, sub_eq_zero] at h1 h2 h3
  refine ⟨n, h0, n.dot a, fun p hp => ?_⟩
  simp only [List.mem_cons, List.not_mem_nil, or_false] at hp
  rcases hp with rfl | rfl | rfl | rfl <;> first | rfl | assumption

/-- A vertex off the spheres and planes is on no side. -/
theorem Spec.Off.side_ne (hoff : ∃ p, At m id p ∧ Off m p) (hd : Delaunay m) (hm : Consistent m) {w : Walker} {q : V4}
    (hq : m.tet4 w = some q) : side (pvec m.position) q (pvec m.position id) ≠ 0 := by
  obtain ⟨p, hid, hoff⟩ := hoff
  obtain ⟨a, b, c, d⟩ := q
  by_cases hg : GHOST ∈ [a, b, c, d]
  · obtain ⟨w', x, y, z, h1, h2, h3⟩ := ghost_last hq hg
    rw [side_same _ (tet4_same h1 h2 hq)]
    have hnd := hm.distinct _ _ _ _ _ h2
    simp only [List.nodup_cons, List.mem_cons, List.not_mem_nil, or_false, not_or, not_false_eq_true, List.nodup_nil,
      and_true] at hnd
    obtain ⟨px, hx⟩ := tet_positions hm h2 x (by simp) hnd.1.2.2
    obtain ⟨py, hy⟩ := tet_positions hm h2 y (by simp) hnd.2.1.2
    obtain ⟨pz, hz⟩ := tet_positions hm h2 z (by simp) hnd.2.2
    simp only [side, pvec_at hx, pvec_at hy, pvec_at hz, pvec_at hid, pvec_ghost, ghost3, ne_eq, neg_eq_zero]
    intro h
    exact hoff.planes _ _ _ _ _ _ _ h2 hx hy hz (orient_coplanar h)
  · simp only [List.mem_cons, List.not_mem_nil, or_false, not_or] at hg
    obtain ⟨pa, ha⟩ := tet_positions hm hq a (by simp) (Ne.symm hg.1)
    obtain ⟨pb, hb⟩ := tet_positions hm hq b (by simp) (Ne.symm hg.2.1)
    obtain ⟨pc, hc⟩ := tet_positions hm hq c (by simp) (Ne.symm hg.2.2.1)
    obtain ⟨pd, hpd⟩ := tet_positions hm hq d (by simp) (Ne.symm hg.2.2.2)
    have hpos := hd.positive _ _ _ _ _ _ _ _ _ hq ha hb hc hpd
    simp only [side, pvec_at ha, pvec_at hb, pvec_at hc, pvec_at hpd, pvec_at hid, det_solid, ne_eq, neg_eq_zero]
    intro h
    obtain ⟨o, r2, hs⟩ := exists_sphere hpos.ne'
    rw [inSphere_eq hs, mul_eq_zero, or_iff_right hpos.ne', sub_eq_zero] at h
    refine hoff.spheres _ _ _ _ _ _ _ _ _ hq ha hb hc hpd o r2 fun x hx => ?_
    simp only [List.mem_cons, List.not_mem_nil, or_false] at hx
    rcases hx with rfl | rfl | rfl | rfl | rfl
    · exact hs _ (by simp)
    · exact hs _ (by simp)
    · exact hs _ (by simp)
    · exact hs _ (by simp)
    · exact h.symm

/-- Different vertices are at different places. -/
theorem Hull.vec_ne {S : VId → Prop} {vec : VId → Vec5 K} (hu : Hull m S vec) {u v : VId} (hS : S u) (hv : InMesh m v) (hne : u ≠ v) :
    vec u ≠ vec v := by
  intro he
  obtain ⟨w, hw⟩ := hv
  obtain ⟨b, c, d, hq⟩ := first_tet4 hw
  by_cases hin : u ∈ [v, b, c, d]
  · obtain ⟨w', c', d', -, h2, -⟩ := edgeAt hq hin (by simp) hne
    obtain ⟨z, hz, hn⟩ := hu.five (u, v, c', d')
    have h3 := hu.pos _ _ z h2 hz hn
    have h4 := side_swap vec u v c' d' (vec z)
    have h5 : side vec (v, u, c', d') (vec z) = side vec (u, v, c', d') (vec z) := by simp only [side, he]
    linarith
  · have h1 := hu.pos w _ u hq hS hin
    rw [he, side_zero vec (by simp)] at h1
    exact lt_irrefl _ h1

/-- The distance from a point, as a linear map. -/
def distMap (p : Pt K) : Vec5 K →ₗ[K] K where
  toFun := dist5 p
  map_add' := dist5_add p
  map_smul' k y := dist5_smul p k y

/-- The weight of a lifted point. -/
def weightMap : Vec5 K →ₗ[K] K where
  toFun y := y 3
  map_add' _ _ := rfl
  map_smul' _ _ := rfl

theorem sub_norm2_pos {p q : Pt K} (h : p ≠ q) : 0 < (p.sub q).norm2 := by
  apply norm2_pos
  intro e
  apply h
  simp only [Pt.sub, Pt.mk.injEq, sub_eq_zero] at e
  exact Pt.ext e.1 e.2.1 e.2.2

theorem seen_violated {norm : Pt K → K} {tol : K} {sim} {key : List (Pt K) → Pt K → H} {leH}
    (hm : Consistent m) {p : Pt K} (hid : At m id p) {w : Walker} {q : V4} (hq : m.tet4 w = some q) :
    (0 < ((exactGeo norm tol sim key leH).tests m.position id).inSphere q ↔ side (pvec m.position) q (pvec m.position id) < 0) ∧
    (((exactGeo norm tol sim key leH).tests m.position id).inSphere q = 0 ↔ side (pvec m.position) q (pvec m.position id) = 0) := by
  obtain ⟨a, b, c, d⟩ := q
  have := sphereSign_side (pos := m.position) (hm.distinct _ _ _ _ _ hq) (fun v hv hg => by
    obtain ⟨p, hp⟩ := tet_positions hm hq v hv hg
    exact ⟨p, At.position hp⟩) (At.position hid) hid.1
  simp only [exactGeo, exactTests, this, Left.neg_pos_iff, Left.neg_neg_iff]
  split_ifs with h1 h2
  · exact ⟨by simp [h1], by simp [h1.ne]⟩
  · exact ⟨by simp [h1], by simp [h2.ne']⟩
  · exact ⟨by simp [h1], by simp [le_antisymm (not_lt.1 h2) (not_lt.1 h1)]⟩

/-- The situation. -/
structure Adds (m : Mesh (Pt K) V T) (id : VId) (p : Pt K) : Prop where
  ready : Ready m
  delaunay : Delaunay m
  at_ : At m id p
  new : ¬ InMesh m id
  off : Off m p

variable {p : Pt K}

theorem Adds.hull (h : Adds m id p) : Hull m (InM m) (pvec m.position) := h.delaunay.toHull h.ready.consistent

theorem Adds.side_ne (h : Adds m id p) {w : Walker} {q : V4} (hq : m.tet4 w = some q) :
    side (pvec m.position) q (pvec m.position id) ≠ 0 := Off.side_ne ⟨p, h.at_, h.off⟩ h.delaunay h.ready.consistent hq

theorem Adds.ne (h : Adds m id p) {v : VId} (hv : InMesh m v) {pv : Pt K} (ha : At m v pv) : pv ≠ p := by
  rintro rfl
  obtain ⟨w, hw⟩ := hv
  obtain ⟨b, c, d, hq⟩ := first_tet4 hw
  apply h.side_ne hq
  rw [pvec_at h.at_, ← pvec_at ha]
  exact side_zero _ (by simp)

theorem Adds.extreme (h : Adds m id p) {v : VId} (hv : InM m v) : ∃ f : Vec5 K →ₗ[K] K, f (pvec m.position v) = 0 ∧
    (∀ u, InM m u → u ≠ v → 0 < f (pvec m.position u)) ∧ 0 < f (pvec m.position id) := by
  have hm := h.ready.consistent
  by_cases hg : v = GHOST
  · subst hg
    refine ⟨weightMap, by rw [pvec_ghost]; rfl, fun u hu hne => ?_, ?_⟩
    · obtain ⟨pu, hpu⟩ := exists_at hm hu hne
      rw [pvec_at hpu]
      exact zero_lt_one
    · rw [pvec_at h.at_]
      exact zero_lt_one
  · obtain ⟨pv, hpv⟩ := exists_at hm hv hg
    have hvm := hv.resolve_right hg
    refine ⟨distMap pv, ?_, fun u hu hne => ?_, ?_⟩
    · rw [pvec_at hpv]
      show dist5 pv (lift pv) = 0
      rw [dist5_lift]
      simp [Pt.norm2, Pt.dot, Pt.sub]
    · by_cases hug : u = GHOST
      · subst hug
        rw [pvec_ghost]
        show 0 < dist5 pv liftGhost
        rw [dist5_ghost]
        exact zero_lt_one
      · obtain ⟨pu, hpu⟩ := exists_at hm hu hug
        have := h.hull.vec_ne hu hvm hne
        rw [pvec_at hpu, pvec_at hpv] at this
        rw [pvec_at hpu]
        show 0 < dist5 pv (lift pu)
        rw [dist5_lift]
        exact sub_norm2_pos fun e => this (by rw [e])
    · rw [pvec_at h.at_]
      show 0 < dist5 pv (lift p)
      rw [dist5_lift]
      exact sub_norm2_pos (h.ne hvm hpv).symm

/-- The search does not give up. -/
theorem Adds.found (h : Adds m id p) {norm : Pt K → K} {tol : K} {sim} {key : List (Pt K) → Pt K → H} {leH} :
    ¬ GaveUp (exactGeo norm tol sim key leH) m id := by
  rintro ⟨c, w, hg, -, hw, hclose, hviol, -⟩
  have hm := h.ready.consistent
  obtain ⟨pc, hpc⟩ := exists_at hm (.inl ⟨w, hw⟩) hg
  obtain ⟨u, k, t, h1, h2, h3⟩ := h.hull.star_cone (v := c) (fam := StarReach m c w.tet) (w0 := w) .refl hw
    (fun x x' hx hf ha => hx.cross hf ha) (x := pvec m.position id) (fun x q hx hq _ => by
      by_contra hc
      apply hviol _ hx
      obtain ⟨t, ht, -⟩ := Mesh.tet4_iff.1 hq
      have hk : m.tet4 (Mesh.walkerFromTetId x.tet) = some (t.tet 3) := Mesh.tet4_iff.2 ⟨t, ht, rfl⟩
      refine ⟨_, hk, (seen_violated hm h.at_ hk).1.2 ?_⟩
      rw [side_same _ (tet4_same (w := x) (w' := Mesh.walkerFromTetId x.tet) rfl hq hk)]
      exact not_le.1 hc)
  have hu : ∀ i, 0 ≤ k i * (distMap p (pvec m.position (u i)) - (pc.sub p).norm2 * weightMap (pvec m.position (u i))) := by
    intro i
    obtain ⟨y, hy, he⟩ := h2 i
    refine mul_nonneg (h1 i) ?_
    obtain ⟨c', d', hq⟩ := edge_tet4 he
    have hui : InM m (u i) := (mem_vertices (S := InM m) hm (fun w v h => .inl ⟨w, h⟩) hq).2.1
    by_cases hug : u i = GHOST
    · rw [hug, pvec_ghost]
      have : (distMap p) (liftGhost : Vec5 K) = 1 := dist5_ghost p
      rw [this]
      have : (weightMap : Vec5 K →ₗ[K] K) liftGhost = 0 := rfl
      rw [this]
      simp
    · obtain ⟨pu, hpu⟩ := exists_at hm hui hug
      rw [pvec_at hpu]
      have e1 : (distMap p) (lift pu) = (pu.sub p).norm2 := dist5_lift p pu
      have e2 : (weightMap : Vec5 K →ₗ[K] K) (lift pu) = 1 := rfl
      rw [e1, e2, mul_one, sub_nonneg]
      have hne : u i ≠ id := by
        intro e
        exact h.new (e ▸ hui.resolve_right hug)
      have := hclose _ _ hy ⟨y, rfl, he⟩ hne
      by_contra hc
      apply this
      have hd : ∀ {v q}, At m v q → m.distance2 (exactGeo norm tol sim key leH) v id = some (((q.sub p).norm2 : K) : WithTop K) := by
        intro v q hv
        simp [Mesh.distance2, hv.1, h.at_.1, At.position hv, At.position h.at_, exactGeo]
      refine ⟨_, _, hd hpu, hd hpc, ?_⟩
      simp only [exactGeo, decide_eq_true_eq, WithTop.coe_lt_coe]
      exact not_le.1 hc
  have e1 := congrArg (distMap p) h3
  have e2 := congrArg (weightMap : Vec5 K →ₗ[K] K) h3
  simp only [map_add, map_smul, smul_eq_mul] at e1 e2
  have f1 : (distMap p) (pvec m.position id) = 0 := by
    rw [pvec_at h.at_]
    show dist5 p (lift p) = 0
    rw [dist5_lift]
    simp [Pt.norm2, Pt.dot, Pt.sub]
  have f2 : (weightMap : Vec5 K →ₗ[K] K) (pvec m.position id) = 1 := by
    rw [pvec_at h.at_]
    rfl
  have f3 : (distMap p) (pvec m.position c) = (pc.sub p).norm2 := by
    rw [pvec_at hpc]
    exact dist5_lift p pc
  have f4 : (weightMap : Vec5 K →ₗ[K] K) (pvec m.position c) = 1 := by
    rw [pvec_at hpc]
    rfl
  rw [f1, f3] at e1
  rw [f2, f4] at e2
  have hpos : 0 < (pc.sub p).norm2 := sub_norm2_pos (h.ne ⟨w, hw⟩ hpc)
  have e3 := congrArg (fun x => (pc.sub p).norm2 * x) e2
  simp only [mul_one, mul_add] at e3
  have := hu 0
  have := hu 1
  have := hu 2
  have := hu 3
  simp only [mul_sub] at *
  have hc : ∀ i, k i * ((pc.sub p).norm2 * weightMap (pvec m.position (u i))) = (pc.sub p).norm2 * (k i * weightMap (pvec m.position (u i))) :=
    fun i => by ring
  simp only [hc] at *
  linarith

variable {norm : Pt K → K} {tol : K} {sim : Pt K → Pt K → Pt K → Pt K → Bool} {key : List (Pt K) → Pt K → H} {leH : H → H → Bool}

theorem Adds.seen_iff (h : Adds m id p) {k : TId} :
    Conflicts ((exactGeo norm tol sim key leH).tests m.position id).inSphere m k ↔ Seen m (pvec m.position) (pvec m.position id) k := by
  have hm := h.ready.consistent
  constructor
  · rintro ⟨w, q, h1, h2, h3 | ⟨h3, -⟩⟩
    · exact ⟨w, q, h1, h2, (seen_violated hm h.at_ h2).1.1 h3⟩
    · exact absurd ((seen_violated hm h.at_ h2).2.1 h3) (h.side_ne h2)
  · rintro ⟨w, q, h1, h2, h3⟩
    exact ⟨w, q, h1, h2, .inl ((seen_violated hm h.at_ h2).1.2 h3)⟩

/-- The cavity consists of all tets that the vertex sees. -/
theorem Adds.cav (h : Adds m id p) {k : TId} (hv : Violated (exactGeo norm tol sim key leH) m id k)
    (hE : ∀ j, j ∈ E ↔ Reached m (Conflicts ((exactGeo norm tol sim key leH).tests m.position id).inSphere m) [k] j) :
    Cav m (InM m) (pvec m.position) id E where
  hull := h.hull
  off := fun _ _ hq => h.side_ne hq
  extreme := fun _ hv => h.extreme hv
  mem := by
    have hm := h.ready.consistent
    obtain ⟨q, hq, hs⟩ := hv
    have hk : Seen m (pvec m.position) (pvec m.position id) k := ⟨_, q, rfl, hq, (seen_violated hm h.at_ hq).1.1 hs⟩
    have e : Conflicts ((exactGeo norm tol sim key leH).tests m.position id).inSphere m = Seen m (pvec m.position) (pvec m.position id) := by
      funext k
      exact propext h.seen_iff
    rw [e] at hE
    intro j
    rw [hE]
    constructor
    · intro hj
      cases hj with
      | start h => rw [List.mem_singleton.1 h]; exact hk
      | step _ _ h => exact h
    · exact h.hull.connected hk

/-- The vertices afterwards. -/
theorem coned_vertices (hB : Boundary m E B) (hc : Coned m m' id E B) {v : VId} (hv : InMesh m' v) : InMesh m v ∨ v = id := by
  obtain ⟨old, new, h1, h2, h3, h4, h5⟩ := hc.tets
  obtain ⟨w, hw⟩ := hv
  obtain ⟨b, c, d, hq⟩ := first_tet4 hw
  rcases (h5 _).1 ⟨w, hq⟩ with ⟨hk, -⟩ | ⟨⟨x, y, z, u⟩, hp, σ, -, hσ⟩
  · exact .inl (inMesh_of_hasTet hk 0)
  · have hu := h3 _ hp
    simp only at hu
    subst hu
    have hmem : some (x, y, z) ∈ B.map m.tri := by
      rw [h2]
      exact List.mem_map.2 ⟨_, hp, rfl⟩
    obtain ⟨b', -, hb'⟩ := List.mem_map.1 hmem
    obtain ⟨o, ho⟩ := tri_tet4 hb'
    have e : v = quad (x, y, z, u) (σ 0) := hσ 0
    rw [e]
    have hin : ∀ j, InMesh m (quad (x, y, z, o) j) := inMesh_of_hasTet ⟨_, ho⟩
    generalize σ 0 = j
    match j with
    | 0 => exact .inl (hin 0)
    | 1 => exact .inl (hin 1)
    | 2 => exact .inl (hin 2)
    | 3 => exact .inr rfl

theorem position_of_payload (hc : Coned m m' id E B) : m'.position = m.position := by
  funext u
  have := congrArg (Option.map Prod.fst) (hc.payload u)
  simpa only [Mesh.position, Option.map_map, Function.comp_def] using this

theorem sameTet_mem {p q : V4} (h : SameTet p q) {v : VId} (hv : v ∉ [q.1, q.2.1, q.2.2.1, q.2.2.2]) :
    v ∉ [p.1, p.2.1, p.2.2.1, p.2.2.2] := by
  obtain ⟨σ, -, hσ⟩ := EvenRearr.symm h
  obtain ⟨a, b, c, d⟩ := p
  obtain ⟨x, y, z, u⟩ := q
  have hall : ∀ j, quad (a, b, c, d) j ≠ v := by
    intro j e
    apply hv
    rw [hσ j] at e
    rw [← e]
    generalize σ j = i
    match i with
    | 0 => simp [quad]
    | 1 => simp [quad]
    | 2 => simp [quad]
    | 3 => simp [quad]
  simp only [List.mem_cons, List.not_mem_nil, or_false, not_or]
  exact ⟨Ne.symm (hall 0), Ne.symm (hall 1), Ne.symm (hall 2), Ne.symm (hall 3)⟩

/-- The result is convex when lifted. -/
theorem Cav.result (C : Cav m (InM m) (pvec m.position) id E) (hB : Boundary m E B) (hc : Coned m m' id E B)
    (hm' : Consistent m') : Hull m' (InM m') (pvec m'.position) := by
  have hpos := position_of_payload hc
  have hH := C.hull
  have hS : ∀ {v}, InM m' v → v ≠ id → InM m v := by
    rintro v (hv | hv) hne
    · exact .inl ((coned_vertices hB hc hv).resolve_right hne)
    · exact .inr hv
  rw [hpos]
  refine ⟨hm', fun w v h => .inl ⟨w, h⟩, fun q => ?_, ?_⟩
  · obtain ⟨v, hv, hn⟩ := hH.five q
    rcases hv with hv | hv
    · exact ⟨v, .inl (coned_inMesh C.fillable hB hc hv), hn⟩
    · exact ⟨v, .inr hv, hn⟩
  · intro w q v hq hv hn
    obtain ⟨old, new, h1, h2, h3, h4, h5⟩ := hc.tets
    rcases (h5 _).1 ⟨w, hq⟩ with ⟨⟨x, hx⟩, hold⟩ | ⟨⟨a, b, c, u⟩, hp, hs⟩
    · by_cases hvi : v = id
      · subst hvi
        rcases lt_or_gt_of_ne (C.off _ _ hx) with hlt | hgt
        · exfalso
          have hE := (C.mem x.tet).2 ⟨x, q, rfl, hx, hlt⟩
          have : m.tet4 (Mesh.walkerFromTetId x.tet) ∈ old.map some := by
            rw [← h1]
            exact List.mem_map.2 ⟨_, hE, rfl⟩
          obtain ⟨o, ho, ho'⟩ := List.mem_map.1 this
          exact hold o ho (tet4_same (w := Mesh.walkerFromTetId x.tet) (w' := x) rfl ho'.symm hx)
        · exact hgt
      · exact hH.pos x q v hx (hS hv hvi) hn
    · have hu := h3 _ hp
      simp only at hu
      subst hu
      rw [side_same _ hs]
      have hn' := sameTet_mem hs hn
      simp only [List.mem_cons, List.not_mem_nil, or_false, not_or] at hn'
      have hmem : some (a, b, c) ∈ B.map m.tri := by
        rw [h2]
        exact List.mem_map.2 ⟨_, hp, rfl⟩
      obtain ⟨b', hb', ht⟩ := List.mem_map.1 hmem
      have ho : Outer m E b' := (hB.exact b').1 ⟨b', hb', .inl rfl⟩
      exact C.cone ho ht (hS hv hn'.2.2.2) (by
        simp only [List.mem_cons, List.not_mem_nil, or_false, not_or]; tauto)

theorem Hull.solid (hu : Hull m (InM m) (pvec m.position)) {w : Walker} {v : VId} (hw : m.first w = some v) :
    ∃ w a b c d, m.tet4 w = some (a, b, c, d) ∧ GHOST ∉ [a, b, c, d] := by
  obtain ⟨b, c, d, hq⟩ := first_tet4 hw
  by_cases hg : GHOST ∈ [v, b, c, d]
  · obtain ⟨w', x, y, z, -, h2, -⟩ := ghost_last hq hg
    obtain ⟨w2, o, -, -, h3⟩ := toAcross hu.cons h2
    have hne := hu.apex_ne h2 h3
    have hnd := hu.cons.distinct _ _ _ _ _ h2
    refine ⟨w2, _, _, _, _, h3, ?_⟩
    simp only [List.nodup_cons, List.mem_cons, List.not_mem_nil, or_false, not_or, not_false_eq_true, List.nodup_nil,
      and_true] at hnd ⊢
    exact ⟨Ne.symm hnd.2.1.2, Ne.symm hnd.1.2.2, Ne.symm hnd.2.2, Ne.symm hne⟩
  · exact ⟨w, _, _, _, _, hq, hg⟩

/-- The surface has at most four triangles per tet. -/
theorem boundary_length (hm : Consistent m) (hB : Boundary m E B) (hl : ∀ k ∈ E, (m.tets.get k).isSome) {nT : Nat}
    (hT : m.numTets = some nT) : B.length ≤ 4 * nT := by
  have h1 : (B.map fid).Nodup := by
    rw [List.nodup_iff_pairwise_ne, List.pairwise_map]
    exact hB.once.imp fun h e => h ((sameTri_iff _ _).2 e.symm)
  have h2 : B.map fid ⊆ m.tets.keys ×ˢ List.finRange 4 := by
    intro x hx
    obtain ⟨b, hb, rfl⟩ := List.mem_map.1 hx
    have hbE := ((hB.exact b).1 ⟨b, hb, .inl rfl⟩).1
    refine List.mem_product.2 ⟨IdMap.mem_keys.2 (hl _ hbE), List.mem_finRange _⟩
  have h3 := (List.subperm_of_subset h1 h2).length_le
  rw [List.length_map, List.length_product, List.length_finRange] at h3
  have h4 := IdMapSpec.length_keys hm.stored.2.2
  have h5 := hm.stored.2.2.len_eq
  rw [Mesh.numTets, h5] at hT
  have := Option.some.inj hT
  omega

/-- Inserting a vertex keeps the mesh Delaunay. -/
theorem Adds.run (h : Adds m id p) {run : Nat → Option (Mesh (Pt K) V T × VId)} (hi : Inserts (exactGeo norm tol sim key leH) m id run)
    {nT nE : Nat} (hT : m.numTets = some nT) (hE : m.numEdges = some nE) (rT : 5 * nT ≤ idMax) (rE : nE + 12 * nT ≤ idMax) :
    ∃ N m', (∀ fuel ≥ N, run fuel = some (m', id)) ∧ Ready m' ∧ Delaunay m' ∧ (∀ v, InMesh m' v ↔ InMesh m v ∨ v = id) ∧
      LocksKept m m' ∧ ∀ u, (m'.vertices.get u).map (fun y => (y.position, y.value)) =
        (m.vertices.get u).map fun y => (y.position, y.value) := by
  have hm := h.ready.consistent
  obtain ⟨N, ⟨hg, -⟩ | ⟨k, E, B, h1, h2, h3, h4, h5⟩⟩ := hi
  · exact absurd hg h.found
  have C := h.cav h1 h3
  have hlen := boundary_length hm h4 (fun k hk => C.live hk) hT
  obtain ⟨m', k1, k2, k3, k4, k5⟩ := h5 C.fillable nT nE hT hE (by omega) (by omega)
  have hH := C.result h4 k3 k2.consistent
  refine ⟨N, m', k1, k2, hH.toDelaunay ?_, ?_, k3.locks, k3.payload⟩
  · obtain ⟨w, hw⟩ := k4
    exact hH.solid hw
  · intro v
    constructor
    · exact coned_vertices h4 k3
    · rintro (hv | rfl)
      · exact k5 v hv
      · exact k4

end Tet
