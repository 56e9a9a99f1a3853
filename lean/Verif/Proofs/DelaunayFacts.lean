import Verif.Proofs.DelaunayInsert

/-!
# What Delaunay meshes are like
-/

namespace Tet
open Spec Vec5
variable {V T V' T' : Type} {K H : Type} [Field K] [LinearOrder K] [IsStrictOrderedRing K]
variable {m m' : Mesh (Pt K) V T} {id : VId} {E : List TId} {B : List Walker} {S : VId → Prop} {vec : VId → Vec5 K}

/-- What only depends on the tets and the positions of their vertices. -/
theorem at_congr {m1 : Mesh (Pt K) V T} (hv : ∀ v, InMesh m v → v ≠ GHOST → m1.vertices.get v = m.vertices.get v) {v : VId}
    (h : InMesh m v) {p : Pt K} : At m1 v p ↔ At m v p := by
  constructor
  · rintro ⟨h1, x, h2, h3⟩
    exact ⟨h1, x, by rw [← hv v h h1]; exact h2, h3⟩
  · rintro ⟨h1, x, h2, h3⟩
    exact ⟨h1, x, by rw [hv v h h1]; exact h2, h3⟩

theorem inMesh_tet {w : Walker} {a b c d : VId} (h : m.tet4 w = some (a, b, c, d)) : InMesh m a ∧ InMesh m b ∧ InMesh m c ∧ InMesh m d :=
  ⟨inMesh_of_hasTet ⟨w, h⟩ 0, inMesh_of_hasTet ⟨w, h⟩ 1, inMesh_of_hasTet ⟨w, h⟩ 2, inMesh_of_hasTet ⟨w, h⟩ 3⟩

theorem Spec.Delaunay.congr (h : Delaunay m) {vs : IdMap (Vertex (Pt K) V)}
    (hv : ∀ v, InMesh m v → v ≠ GHOST → vs.get v = m.vertices.get v) : Delaunay { m with vertices := vs } where
  solid := by
    obtain ⟨w, a, b, c, d, pa, pb, pc, pd, hq, ha, hb, hc, hd⟩ := h.solid
    have hi := inMesh_tet hq
    exact ⟨w, a, b, c, d, pa, pb, pc, pd, hq, (at_congr hv hi.1).2 ha, (at_congr hv hi.2.1).2 hb, (at_congr hv hi.2.2.1).2 hc,
      (at_congr hv hi.2.2.2).2 hd⟩
  positive := by
    intro w a b c d pa pb pc pd hq ha hb hc hd
    have hi := inMesh_tet (m := m) hq
    exact h.positive w a b c d pa pb pc pd hq ((at_congr hv hi.1).1 ha) ((at_congr hv hi.2.1).1 hb) ((at_congr hv hi.2.2.1).1 hc)
      ((at_congr hv hi.2.2.2).1 hd)
  empty := by
    intro w a b c d pa pb pc pd hq ha hb hc hd v pv hvm hpv
    have hvm' : InMesh m v := hvm
    have hi := inMesh_tet (m := m) hq
    exact h.empty w a b c d pa pb pc pd hq ((at_congr hv hi.1).1 ha) ((at_congr hv hi.2.1).1 hb) ((at_congr hv hi.2.2.1).1 hc)
      ((at_congr hv hi.2.2.2).1 hd) v pv hvm' ((at_congr hv hvm').1 hpv)
  hull := by
    intro w a b c pa pb pc hq ha hb hc v pv hvm hpv
    have hvm' : InMesh m v := hvm
    have hi := inMesh_tet (m := m) hq
    exact h.hull w a b c pa pb pc hq ((at_congr hv hi.1).1 ha) ((at_congr hv hi.2.1).1 hb) ((at_congr hv hi.2.2.1).1 hc)
      v pv hvm' ((at_congr hv hvm').1 hpv)

theorem Spec.Off.congr {p : Pt K} (h : Off m p) {vs : IdMap (Vertex (Pt K) V)}
    (hv : ∀ v, InMesh m v → v ≠ GHOST → vs.get v = m.vertices.get v) : Off { m with vertices := vs } p where
  spheres := by
    intro w a b c d pa pb pc pd hq ha hb hc hd
    have hi := inMesh_tet (m := m) hq
    exact h.spheres w a b c d pa pb pc pd hq ((at_congr hv hi.1).1 ha) ((at_congr hv hi.2.1).1 hb) ((at_congr hv hi.2.2.1).1 hc)
      ((at_congr hv hi.2.2.2).1 hd)
  planes := by
    intro w a b c pa pb pc hq ha hb hc
    have hi := inMesh_tet (m := m) hq
    exact h.planes w a b c pa pb pc hq ((at_congr hv hi.1).1 ha) ((at_congr hv hi.2.1).1 hb) ((at_congr hv hi.2.2.1).1 hc)

/-- The four vertices are beyond no tet. -/
theorem Hull.sum_nonneg (hu : Hull m S vec) {w : Walker} {q : V4} (h : m.tet4 w = some q) {a b c d : VId} (ha : S a) (hb : S b)
    (hc : S c) (hd : S d) {ka kb kc kd : K} (ia : 0 ≤ ka) (ib : 0 ≤ kb) (ic : 0 ≤ kc) (id : 0 ≤ kd) :
    0 ≤ side vec q (ka • vec a + kb • vec b + kc • vec c + kd • vec d) := by
  rw [side_add, side_add, side_add, side_smul, side_smul, side_smul, side_smul]
  have := mul_nonneg ia (hu.nonneg h ha)
  have := mul_nonneg ib (hu.nonneg h hb)
  have := mul_nonneg ic (hu.nonneg h hc)
  have := mul_nonneg id (hu.nonneg h hd)
  linarith

/-- With positive weights, four vertices are in the hyperplane of a tet only if they are its vertices. -/
theorem Hull.sum_zero (hu : Hull m S vec) {w : Walker} {q : V4} (h : m.tet4 w = some q) {a b c d : VId} (ha : S a) (hb : S b)
    (hc : S c) (hd : S d) {ka kb kc kd : K} (ia : 0 < ka) (ib : 0 < kb) (ic : 0 < kc) (id : 0 < kd)
    (hz : side vec q (ka • vec a + kb • vec b + kc • vec c + kd • vec d) = 0) :
    ∀ v ∈ [a, b, c, d], v ∈ [q.1, q.2.1, q.2.2.1, q.2.2.2] := by
  rw [side_add, side_add, side_add, side_smul, side_smul, side_smul, side_smul] at hz
  have h1 := mul_nonneg ia.le (hu.nonneg h ha)
  have h2 := mul_nonneg ib.le (hu.nonneg h hb)
  have h3 := mul_nonneg ic.le (hu.nonneg h hc)
  have h4 := mul_nonneg id.le (hu.nonneg h hd)
  have key : ∀ {v : VId} {k : K}, S v → 0 < k → k * side vec q (vec v) = 0 → v ∈ [q.1, q.2.1, q.2.2.1, q.2.2.2] := by
    intro v k hv hk he
    by_contra hn
    have := mul_pos hk (hu.pos w q v h hv hn)
    linarith
  intro v hv
  simp only [List.mem_cons, List.not_mem_nil, or_false] at hv
  rcases hv with rfl | rfl | rfl | rfl
  · exact key ha ia (by linarith)
  · exact key hb ib (by linarith)
  · exact key hc ic (by linarith)
  · exact key hd id (by linarith)

/-- Something inside everything. -/
theorem Hull.inner (hu : Hull m S vec) (hfin : {v | S v}.Finite) : ∃ x : Vec5 K, (∀ w q, m.tet4 w = some q → 0 < side vec q x) ∧
    ∀ q : V4, side vec q x = ∑ v ∈ hfin.toFinset, side vec q (vec v) := by
  classical
  refine ⟨∑ v ∈ hfin.toFinset, vec v, ?_⟩
  have hside : ∀ q : V4, side vec q (∑ v ∈ hfin.toFinset, vec v) = ∑ v ∈ hfin.toFinset, side vec q (vec v) := by
    intro q
    have h0 : side vec q 0 = 0 := by
      have := side_smul vec q 0 0
      simpa using this
    generalize hfin.toFinset = s
    induction s using Finset.induction_on with
    | empty => simpa using h0
    | insert v s hv ih => rw [Finset.sum_insert hv, Finset.sum_insert hv, side_add, ih]
  refine ⟨?_, hside⟩
  intro w q h
  rw [hside]
  obtain ⟨v, hv, hnv⟩ := hu.five q
  exact Finset.sum_pos' (fun v hv => hu.nonneg h (by simpa using hv)) ⟨v, by simpa using hv, hu.pos w q v h hv hnv⟩

/-- Every way to have all other vertices on one side is a tet of the mesh. -/
theorem Hull.complete (hu : Hull m S vec) {w0 : Walker} (hw0 : Live m w0) (hfin : {v | S v}.Finite) {a b c d : VId} (ha : S a) (hb : S b)
    (hc : S c) (hd : S d) (hn : [a, b, c, d].Nodup) (hq : ∀ v, S v → v ∉ [a, b, c, d] → 0 < side vec (a, b, c, d) (vec v)) :
    HasTet m (a, b, c, d) := by
  classical
  have hqn : ∀ v, S v → 0 ≤ side vec (a, b, c, d) (vec v) := by
    intro v hv
    by_cases h : v ∈ [a, b, c, d]
    · rw [side_zero vec h]
    · exact (hq v hv h).le
  obtain ⟨x, hxpos', hside⟩ := hu.inner hfin
  have hxpos : ∀ {w q}, m.tet4 w = some q → 0 < side vec q x := fun h => hxpos' _ _ h
  have hxq : 0 < side vec (a, b, c, d) x := by
    rw [hside]
    obtain ⟨v, hv, hnv⟩ := hu.five (a, b, c, d)
    exact Finset.sum_pos' (fun v hv => hqn v (by simpa using hv)) ⟨v, by simpa using hv, hq v hv hnv⟩
  let Q : Walker → V4 := fun w => (m.tet4 w).getD (0, 0, 0, 0)
  have hQ : ∀ {w q}, m.tet4 w = some q → Q w = q := fun h => by simp only [Q, h, Option.getD_some]
  let y0 : Vec5 K := (1 : K) • vec a + (1 : K) • vec b + (1 : K) • vec c + (1 : K) • vec d
  obtain ⟨w, hw, hg, hr, hall⟩ := ratio (live_finite m) (fun w => side vec (Q w) y0) (fun w => side vec (Q w) x)
    (fun w hw => by
      obtain ⟨a', b', c', d', h⟩ := live_iff.1 hw
      simp only [hQ h]
      exact (hxpos h).le) ⟨w0, hw0, by
      obtain ⟨a', b', c', d', h⟩ := live_iff.1 hw0
      simp only [hQ h]
      exact hxpos h⟩ (fun w hw => by
      obtain ⟨a', b', c', d', h⟩ := live_iff.1 hw
      simp only [hQ h]
      exact hu.sum_nonneg h ha hb hc hd zero_le_one zero_le_one zero_le_one zero_le_one)
  obtain ⟨a', b', c', d', h⟩ := live_iff.1 hw
  set r := side vec (Q w) y0 / side vec (Q w) x with hrdef
  have hz : side vec (a', b', c', d') (y0 + (-r) • x) = 0 := by
    rw [side_add, side_smul, hrdef, hQ h]
    rw [hQ h] at hg
    field_simp [hg.ne']
    ring
  obtain ⟨ka, kb, kc, kd, i1, i2, i3, i4, he⟩ := hu.inCone h hz (fun z z' q' _ _ hz' => by
    have hl : Live m z' := live_iff.2 ⟨_, _, _, _, hz'⟩
    have := hall z' hl
    rw [hQ hz'] at this
    rw [side_add, side_smul]
    linarith)
  have hS := mem_vertices hu.cons hu.mem h
  have hqy : side vec (a, b, c, d) (y0 + (-r) • x) = -(r * side vec (a, b, c, d) x) := by
    simp only [y0]
    rw [side_add, side_add, side_add, side_add, side_smul, side_smul, side_smul, side_smul, side_smul,
      side_zero vec (v := a) (by simp), side_zero vec (v := b) (by simp), side_zero vec (v := c) (by simp),
      side_zero vec (v := d) (by simp)]
    ring
  have hge : 0 ≤ side vec (a, b, c, d) (y0 + (-r) • x) := by
    rw [he, side_add, side_add, side_add, side_smul, side_smul, side_smul, side_smul]
    have := mul_nonneg i1 (hqn _ hS.1)
    have := mul_nonneg i2 (hqn _ hS.2.1)
    have := mul_nonneg i3 (hqn _ hS.2.2.1)
    have := mul_nonneg i4 (hqn _ hS.2.2.2)
    linarith
  have hr0 : r = 0 := by
    rcases hr.lt_or_eq with h | h
    · have := mul_pos h hxq
      linarith
    · exact h.symm
  rw [hr0, neg_zero, zero_smul, add_zero] at hz
  have hin := hu.sum_zero h ha hb hc hd zero_lt_one zero_lt_one zero_lt_one zero_lt_one hz
  simp only at hin
  -- the same vertices, in the same order
  simp only [List.nodup_cons, List.mem_cons, List.not_mem_nil, or_false, not_or, not_false_eq_true, List.nodup_nil,
    and_true] at hn
  obtain ⟨z, c2, d2, e1, e2, e3⟩ := edgeAt h (hin a (by simp)) (hin b (by simp)) hn.1.1
  have hc2 := (e3 c).1 (hin c (by simp))
  have hd2 := (e3 d).1 (hin d (by simp))
  simp only [List.mem_cons, List.not_mem_nil, or_false] at hc2 hd2
  obtain ⟨⟨n1, n2, n3⟩, ⟨n4, n5⟩, n6⟩ := hn
  rcases hc2 with e | e | e | e
  · exact absurd e.symm n2
  · exact absurd e.symm n4
  · rcases hd2 with f | f | f | f
    · exact absurd f.symm n3
    · exact absurd f.symm n5
    · exact absurd (e.trans f.symm) n6
    · subst e f
      exact ⟨z, e2⟩
  · rcases hd2 with f | f | f | f
    · exact absurd f.symm n3
    · exact absurd f.symm n5
    · subst e f
      exfalso
      obtain ⟨v, hv, hnv⟩ := hu.five (a, b, c, d)
      have g1 := hq v hv hnv
      have g2 := hu.pos _ _ v e2 hv (by
        simp only [List.mem_cons, List.not_mem_nil, or_false, not_or] at hnv ⊢; tauto)
      have : side vec (a, b, d, c) (vec v) = -side vec (a, b, c, d) (vec v) := det_swap2 ..
      linarith
    · exact absurd (e.trans f.symm) n6

/-- The part of a sum of lifted points that says where it is. -/
theorem lift_sum {ka kb kc kd : K} {a b c d x : Pt K} (hs : ka + kb + kc + kd = 1) :
    comb [(ka, a), (kb, b), (kc, c), (kd, d)] = x ↔
      ∃ t : K, ka • lift a + kb • lift b + kc • lift c + kd • lift d = lift x + t • (liftGhost : Vec5 K) := by
  constructor
  · rintro rfl
    refine ⟨ka * a.norm2 + kb * b.norm2 + kc * c.norm2 + kd * d.norm2 -
      (comb [(ka, a), (kb, b), (kc, c), (kd, d)]).norm2, ?_⟩
    funext i
    match i with
    | 0 => simp only [Pi.add_apply, Pi.smul_apply, smul_eq_mul, lift_apply, liftGhost_apply, comb, Pt.add, Pt.smul]; ring
    | 1 => simp only [Pi.add_apply, Pi.smul_apply, smul_eq_mul, lift_apply, liftGhost_apply, comb, Pt.add, Pt.smul]; ring
    | 2 => simp only [Pi.add_apply, Pi.smul_apply, smul_eq_mul, lift_apply, liftGhost_apply, comb, Pt.add, Pt.smul]; ring
    | 3 => simp only [Pi.add_apply, Pi.smul_apply, smul_eq_mul, lift_apply, liftGhost_apply]; linarith
    | 4 => simp only [Pi.add_apply, Pi.smul_apply, smul_eq_mul, lift_apply, liftGhost_apply]; ring
  · rintro ⟨t, h⟩
    have h0 := congrFun h 0
    have h1 := congrFun h 1
    have h2 := congrFun h 2
    simp only [Pi.add_apply, Pi.smul_apply, smul_eq_mul, lift_apply, liftGhost_apply, mul_zero, add_zero] at h0 h1 h2
    obtain ⟨x, y, z⟩ := x
    simp only at h0 h1 h2
    simp only [comb, Pt.add, Pt.smul, Pt.mk.injEq]
    exact ⟨by rw [← h0]; ring, by rw [← h1]; ring, by rw [← h2]; ring⟩

theorem Hull.ghost_pos (hu : Hull m (InM m) (pvec m.position)) {w : Walker} {a b c d : VId} (h : m.tet4 w = some (a, b, c, d))
    (hg : GHOST ∉ [a, b, c, d]) : 0 < side (pvec m.position) (a, b, c, d) liftGhost := by
  have := hu.pos w _ GHOST h (.inr rfl) hg
  rwa [pvec_ghost] at this

/-- Two solid tets with a common point inside are the same. -/
theorem Hull.disjoint (hu : Hull m (InM m) (pvec m.position)) {w w' : Walker} {a b c d a' b' c' d' : VId}
    {pa pb pc pd pa' pb' pc' pd' x : Pt K} (h : m.tet4 w = some (a, b, c, d)) (h' : m.tet4 w' = some (a', b', c', d'))
    (ha : At m a pa) (hb : At m b pb) (hc : At m c pc) (hd : At m d pd) (ha' : At m a' pa') (hb' : At m b' pb')
    (hc' : At m c' pc') (hd' : At m d' pd') (hx : InTet pa pb pc pd x) (hx' : InTet pa' pb' pc' pd' x) : w.tet = w'.tet := by
  obtain ⟨ka, kb, kc, kd, i1, i2, i3, i4, i5, i6⟩ := hx
  obtain ⟨ka', kb', kc', kd', j1, j2, j3, j4, j5, j6⟩ := hx'
  obtain ⟨t, ht⟩ := (lift_sum i5).1 i6
  obtain ⟨t', ht'⟩ := (lift_sum j5).1 j6
  rw [← pvec_at ha, ← pvec_at hb, ← pvec_at hc, ← pvec_at hd] at ht
  rw [← pvec_at ha', ← pvec_at hb', ← pvec_at hc', ← pvec_at hd'] at ht'
  have hS := mem_vertices hu.cons hu.mem h
  have hS' := mem_vertices hu.cons hu.mem h'
  have g1 := hu.ghost_pos h (by simp [ha.1.symm, hb.1.symm, hc.1.symm, hd.1.symm])
  have g2 := hu.ghost_pos h' (by simp [ha'.1.symm, hb'.1.symm, hc'.1.symm, hd'.1.symm])
  have own : ∀ {q : V4} {ka kb kc kd : K}, side (pvec m.position) q (ka • pvec m.position q.1 + kb • pvec m.position q.2.1 +
      kc • pvec m.position q.2.2.1 + kd • pvec m.position q.2.2.2) = 0 := by
    intro q ka kb kc kd
    rw [side_add, side_add, side_add, side_smul, side_smul, side_smul, side_smul, side_zero _ (v := q.1) (by simp),
      side_zero _ (v := q.2.1) (by simp), side_zero _ (v := q.2.2.1) (by simp), side_zero _ (v := q.2.2.2) (by simp)]
    ring
  have e1 := hu.sum_nonneg h' hS.1 hS.2.1 hS.2.2.1 hS.2.2.2 i1.le i2.le i3.le i4.le
  have e2 := hu.sum_nonneg h hS'.1 hS'.2.1 hS'.2.2.1 hS'.2.2.2 j1.le j2.le j3.le j4.le
  have o1 := own (q := (a, b, c, d)) (ka := ka) (kb := kb) (kc := kc) (kd := kd)
  have o2 := own (q := (a', b', c', d')) (ka := ka') (kb := kb') (kc := kc') (kd := kd')
  have e3 : side (pvec m.position) (a', b', c', d') (ka • pvec m.position a + kb • pvec m.position b +
      kc • pvec m.position c + kd • pvec m.position d) = 0 := by
    simp only at o1 o2 e1 e2
    rw [ht, side_add, side_smul] at o1 e1 ⊢
    rw [ht', side_add, side_smul] at o2 e2
    have : t' ≤ t := by
      by_contra hn
      push Not at hn
      have := mul_lt_mul_of_pos_right hn g2
      linarith
    have : t ≤ t' := by
      by_contra hn
      push Not at hn
      have := mul_lt_mul_of_pos_right hn g1
      linarith
    have : t = t' := le_antisymm ‹_› ‹_›
    rw [this]
    exact o2
  exact hu.unique h h' (hu.sum_zero h' hS.1 hS.2.1 hS.2.2.1 hS.2.2.2 i1 i2 i3 i4 e3)

/-- A point that is beyond no triangle of the hull is in a solid tet. -/
theorem Hull.covers (hu : Hull m (InM m) (pvec m.position))
    (hs : ∃ w a b c d, m.tet4 w = some (a, b, c, d) ∧ GHOST ∉ [a, b, c, d]) {x : Pt K}
    (hx : ∀ w a b c pa pb pc, m.tet4 w = some (a, b, c, GHOST) → At m a pa → At m b pb → At m c pc →
      orient3d pa pb pc x ≤ 0) :
    ∃ w a b c d pa pb pc pd, m.tet4 w = some (a, b, c, d) ∧ At m a pa ∧ At m b pb ∧ At m c pc ∧ At m d pd ∧
      ∃ ka kb kc kd : K, 0 ≤ ka ∧ 0 ≤ kb ∧ 0 ≤ kc ∧ 0 ≤ kd ∧ ka + kb + kc + kd = 1 ∧
        comb [(ka, pa), (kb, pb), (kc, pc), (kd, pd)] = x := by
  classical
  obtain ⟨w0, a0, b0, c0, d0, hw0, hg0⟩ := hs
  set vec := pvec m.position with hvec
  let Q : Walker → V4 := fun w => (m.tet4 w).getD (0, 0, 0, 0)
  have hQ : ∀ {w q}, m.tet4 w = some q → Q w = q := fun h => by simp only [Q, h, Option.getD_some]
  have hgn : ∀ {w q}, m.tet4 w = some q → 0 ≤ side vec q liftGhost := by
    intro w q h
    have := hu.nonneg h (v := GHOST) (.inr rfl)
    rwa [hvec, pvec_ghost] at this
  -- ghost tets do not mind
  have hghost : ∀ {w a b c d}, m.tet4 w = some (a, b, c, d) → GHOST ∈ [a, b, c, d] →
      0 ≤ side vec (a, b, c, d) (lift x) ∧ side vec (a, b, c, d) liftGhost = 0 := by
    intro w a b c d h hg
    have hz : side vec (a, b, c, d) liftGhost = 0 := by
      have := side_zero vec (q := (a, b, c, d)) (v := GHOST) hg
      rwa [hvec, pvec_ghost] at this
    refine ⟨?_, hz⟩
    obtain ⟨w', y1, y2, y3, h1, h2, h3⟩ := ghost_last h hg
    rw [side_same _ (tet4_same h1 h2 h)]
    have hnd := hu.cons.distinct _ _ _ _ _ h2
    simp only [List.nodup_cons, List.mem_cons, List.not_mem_nil, or_false, not_or, not_false_eq_true, List.nodup_nil,
      and_true] at hnd
    obtain ⟨p1, q1⟩ := tet_positions hu.cons h2 y1 (by simp) hnd.1.2.2
    obtain ⟨p2, q2⟩ := tet_positions hu.cons h2 y2 (by simp) hnd.2.1.2
    obtain ⟨p3, q3⟩ := tet_positions hu.cons h2 y3 (by simp) hnd.2.2
    simp only [hvec, side, pvec_at q1, pvec_at q2, pvec_at q3, pvec_ghost, ghost3, Left.nonneg_neg_iff]
    exact hx _ _ _ _ _ _ _ h2 q1 q2 q3
  -- the last tet that is hit from below
  obtain ⟨w, hw, hmax⟩ := ((live_finite m).toFinset.filter fun w => 0 < side vec (Q w) liftGhost).exists_max_image
    (fun w => -side vec (Q w) (lift x) / side vec (Q w) liftGhost) ⟨w0, by
      simp only [Finset.mem_filter, Set.Finite.mem_toFinset]
      refine ⟨live_iff.2 ⟨_, _, _, _, hw0⟩, ?_⟩
      rw [hQ hw0]
      exact hu.ghost_pos hw0 hg0⟩
  simp only [Finset.mem_filter, Set.Finite.mem_toFinset] at hw hmax
  obtain ⟨hl, hpos⟩ := hw
  obtain ⟨a, b, c, d, h⟩ := live_iff.1 hl
  rw [hQ h] at hpos hmax
  set t := -side vec (a, b, c, d) (lift x) / side vec (a, b, c, d) liftGhost with htdef
  have hz : side vec (a, b, c, d) (lift x + t • liftGhost) = 0 := by
    rw [side_add, side_smul, htdef, div_mul_cancel₀ _ hpos.ne']
    ring
  obtain ⟨ka, kb, kc, kd, i1, i2, i3, i4, he⟩ := hu.inCone h hz (fun z z' q' _ _ hz' => by
    rw [side_add, side_smul]
    rcases (hgn hz').eq_or_lt with h0 | h0
    · rw [← h0, mul_zero, add_zero]
      obtain ⟨a', b', c', d'⟩ := q'
      by_cases hg : GHOST ∈ [a', b', c', d']
      · exact (hghost hz' hg).1
      · exact absurd h0 (hu.ghost_pos hz' hg).ne
    · have := hmax z' ⟨live_iff.2 ⟨_, _, _, _, hz'⟩, by rw [hQ hz']; exact h0⟩
      rw [hQ hz', div_le_iff₀ h0] at this
      linarith)
  have hg : GHOST ∉ [a, b, c, d] := fun hg => by
    have := (hghost h hg).2
    rw [this] at hpos
    exact absurd hpos (lt_irrefl _)
  simp only [List.mem_cons, List.not_mem_nil, or_false, not_or] at hg
  obtain ⟨pa, ha⟩ := tet_positions hu.cons h a (by simp) (Ne.symm hg.1)
  obtain ⟨pb, hb⟩ := tet_positions hu.cons h b (by simp) (Ne.symm hg.2.1)
  obtain ⟨pc, hc⟩ := tet_positions hu.cons h c (by simp) (Ne.symm hg.2.2.1)
  obtain ⟨pd, hd⟩ := tet_positions hu.cons h d (by simp) (Ne.symm hg.2.2.2)
  rw [hvec, pvec_at ha, pvec_at hb, pvec_at hc, pvec_at hd] at he
  have hsum : ka + kb + kc + kd = 1 := by
    have := congrFun he 3
    simp only [Pi.add_apply, Pi.smul_apply, smul_eq_mul, lift_apply, liftGhost_apply] at this
    linarith
  exact ⟨w, a, b, c, d, pa, pb, pc, pd, h, ha, hb, hc, hd, ka, kb, kc, kd, i1, i2, i3, i4, hsum,
    (lift_sum hsum).2 ⟨t, he.symm⟩⟩

theorem inM_finite (m : Mesh (Pt K) V T) : {v | InM m v}.Finite := by
  refine Set.Finite.subset (((live_finite m).image fun w => (m.first w).getD 0).union (Set.finite_singleton GHOST)) ?_
  rintro v (⟨w, hw⟩ | h)
  · refine .inl ⟨w, ?_, by simp [hw]⟩
    rw [Set.mem_setOf_eq, Live]
    unfold Mesh.first at hw
    cases h : m.tets.get w.tet <;> simp_all
  · exact .inr h

/-- All vertices in tets are on the positive side of all tets. -/
def hullCheck (m : Mesh (Pt K) V T) : Bool :=
  m.tets.keys.all fun k => (m.tet4 (Mesh.walkerFromTetId k)).all fun q =>
    (GHOST :: m.vertices.keys.filter fun v => (m.vertices.get v).any fun x => decide (m.first x.tet = some v)).all fun v =>
    decide (v ∈ [q.1, q.2.1, q.2.2.1, q.2.2.2]) || decide (0 < side (pvec m.position) q (pvec m.position v))

theorem delaunay_of_check (hm : Consistent m) (h : hullCheck m = true)
    (hs : ∃ w a b c d, m.tet4 w = some (a, b, c, d) ∧ GHOST ∉ [a, b, c, d]) : Delaunay m := by
  refine Hull.toDelaunay ⟨hm, fun w v h => .inl ⟨w, h⟩, five_of_solid hm hs, ?_⟩ hs
  rintro w ⟨a, b, c, d⟩ v hq hv hn
  have hl : Live m w := live_iff.2 ⟨_, _, _, _, hq⟩
  have hl' : Live m (Mesh.walkerFromTetId w.tet) := hl
  obtain ⟨a', b', c', d', hq'⟩ := live_iff.1 hl'
  have hsame := tet4_same (w := Mesh.walkerFromTetId w.tet) (w' := w) rfl hq' hq
  rw [side_same _ hsame]
  have h1 := List.all_eq_true.1 h w.tet (IdMap.mem_keys.2 (by rw [Live] at hl; exact hl))
  rw [hq', Option.all_some, List.all_eq_true] at h1
  have hvk : v ∈ GHOST :: m.vertices.keys.filter fun v => (m.vertices.get v).any fun x => decide (m.first x.tet = some v) := by
    by_cases hg : v = GHOST
    · rw [hg]; exact List.mem_cons_self
    · obtain ⟨w, hw⟩ := hv.resolve_right hg
      obtain ⟨x, hx, hx'⟩ := (hm.vertexLive w v hw).resolve_left hg
      refine List.mem_cons_of_mem _ (List.mem_filter.2 ⟨IdMap.mem_keys.2 (by rw [hx]; rfl), ?_⟩)
      rw [hx, Option.any_some, decide_eq_true_eq]
      exact hx'
  have h2 := h1 v hvk
  rw [Bool.or_eq_true, decide_eq_true_eq, decide_eq_true_eq] at h2
  rcases h2 with h2 | h2
  · exact absurd h2 (sameTet_mem hsame hn)
  · exact h2

theorem orient_comb (a b c : Pt K) (l : List (K × Pt K)) : orient3d a b c (comb l) =
    (l.map fun e => e.1 * orient3d a b c e.2).sum + (1 - (l.map (·.1)).sum) * orient3d a b c ⟨0, 0, 0⟩ := by
  induction l with
  | nil => simp [comb]
  | cons e l ih =>
    have h : ∀ (k : K) (p q : Pt K), orient3d a b c ((Pt.smul k p).add q) =
        k * orient3d a b c p + orient3d a b c q - k * orient3d a b c ⟨0, 0, 0⟩ := by
      intro k p q
      simp only [orient3d, Pt.add, Pt.smul, Pt.sub, Pt.cross, Pt.dot]; ring
    obtain ⟨k, p⟩ := e
    rw [comb, h, ih, List.map_cons, List.map_cons, List.sum_cons, List.sum_cons]
    ring

theorem sum_nonpos_list {l : List K} (h : ∀ x ∈ l, x ≤ 0) : l.sum ≤ 0 := by
  induction l with
  | nil => simp
  | cons x l ih =>
    rw [List.sum_cons]
    have := h x (by simp)
    have := ih fun y hy => h y (by simp [hy])
    linarith

/-- The lifted point is in the hyperplane of no tet. -/
def offCheck (m : Mesh (Pt K) V T) (p : Pt K) : Bool :=
  m.tets.keys.all fun k => (m.tet4 (Mesh.walkerFromTetId k)).all fun q => decide (side (pvec m.position) q (lift p) ≠ 0)

theorem off_of_check {p : Pt K} (h : offCheck m p = true) : Off m p := by
  have key : ∀ w q, m.tet4 w = some q → side (pvec m.position) q (lift p) ≠ 0 := by
    rintro w ⟨a, b, c, d⟩ hq
    have hl : Live m w := live_iff.2 ⟨_, _, _, _, hq⟩
    have hl' : Live m (Mesh.walkerFromTetId w.tet) := hl
    obtain ⟨a', b', c', d', hq'⟩ := live_iff.1 hl'
    rw [side_same _ (tet4_same (w := Mesh.walkerFromTetId w.tet) (w' := w) rfl hq' hq)]
    have h1 := List.all_eq_true.1 h w.tet (IdMap.mem_keys.2 (by rw [Live] at hl; exact hl))
    rw [hq', Option.all_some, decide_eq_true_eq] at h1
    exact h1
  constructor
  · intro w a b c d pa pb pc pd hq ha hb hc hd o r2 hs
    refine key w _ hq ?_
    simp only [side, pvec_at ha, pvec_at hb, pvec_at hc, pvec_at hd, det_solid]
    rw [inSphere_eq (o := o) (r2 := r2) (fun x hx => hs x (by
      simp only [List.mem_cons, List.not_mem_nil, or_false] at hx ⊢; tauto)), hs p (by simp)]
    ring
  · intro w a b c pa pb pc hq ha hb hc hco
    refine key w _ hq ?_
    simp only [side, pvec_at ha, pvec_at hb, pvec_at hc, pvec_ghost, ghost3, coplanar_orient hco, neg_zero]

end Tet
