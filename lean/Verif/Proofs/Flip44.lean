import Verif.Proofs.FlipSem

/-!
# The 4-to-4 flip
-/

namespace Tet
open Spec
variable {P V T : Type}

/-! ## Walkers and vertices -/

/-- Reading the sub-tuples. -/
theorem tet4_parts {m : Mesh P V T} {w : Walker} {a b c d : VId} (h : m.tet4 w = some (a, b, c, d)) :
    m.first w = some a ∧ m.fourth w = some d ∧ m.edge w = some (a, b) ∧ m.tri w = some (a, b, c) := by
  obtain ⟨t, h1, h2⟩ := Mesh.tet4_iff.1 h
  simp only [Tet.tet, Prod.mk.injEq] at h2
  obtain ⟨q1, q2, q3, q4⟩ := h2
  simp [Mesh.first, Mesh.fourth, Mesh.edge, Mesh.tri, h1, Tet.edge, Tet.tri, q1, q2, q3, q4]

theorem tri_tet4 {m : Mesh P V T} {w : Walker} {a b c : VId} (h : m.tri w = some (a, b, c)) :
    ∃ d, m.tet4 w = some (a, b, c, d) := by
  obtain ⟨t, h1, h2⟩ := Mesh.tri_iff.1 h
  simp only [Tet.tri, Prod.mk.injEq] at h2
  exact ⟨t.fourth w.edge, Mesh.tet4_iff.2 ⟨t, h1, by simp only [Tet.tet, h2]⟩⟩

theorem tet4_twin {m : Mesh P V T} {w : Walker} {a b c d : VId} (h : m.tet4 w = some (a, b, c, d)) :
    m.tet4 w.twin = some (b, a, d, c) := by
  rw [(walker_moves w).2.2.2.2.1]; exact tet4_perm h _

/-- Adjacency is determined by the triangles. -/
theorem ConsistentT.toAdj_of_tri {m : Mesh P V T} (hm : ConsistentT m) {w w' : Walker} {a b c : VId}
    (h : m.tri w = some (a, b, c)) (h' : m.tri w' = some (b, a, c)) : m.toAdj w = some w' := by
  obtain ⟨t, h1, h2⟩ := Mesh.tri_iff.1 h
  obtain ⟨t', h3, h4⟩ := Mesh.tri_iff.1 h'
  obtain ⟨u, h5, -, h6⟩ := hm.adj _ t w.edge h1
  simp only [Tet.tri, Prod.mk.injEq] at h2
  rw [h2.1, h2.2.1, h2.2.2] at h6
  obtain ⟨h7, h8⟩ := hm.tunique _ _ _ _ _ _ h5 h3 (h4.trans h6.symm)
  simp only [Mesh.toAdj, h1, Option.map_some, Option.some.injEq]
  exact (Walker.mk.injEq .. ▸ ⟨h7.symm, h8.symm⟩ : (⟨(t.adj w.edge).tet, (t.adj w.edge).edge⟩ : Walker) = ⟨w'.tet, w'.edge⟩)

theorem ConsistentT.adj_tri {m : Mesh P V T} (hm : ConsistentT m) {w : Walker} {a b c : VId}
    (h : m.tri w = some (a, b, c)) : ∃ w', m.toAdj w = some w' ∧ m.tri w' = some (b, a, c) := by
  obtain ⟨t, h1, h2⟩ := Mesh.tri_iff.1 h
  obtain ⟨u, h5, -, h6⟩ := hm.adj _ t w.edge h1
  simp only [Tet.tri, Prod.mk.injEq] at h2
  rw [h2.1, h2.2.1, h2.2.2] at h6
  exact ⟨_, by simp [Mesh.toAdj, h1], Mesh.tri_iff.2 ⟨u, h5, h6⟩⟩

theorem ConsistentT.ringStep_of {m : Mesh P V T} (hm : ConsistentT m) {w w' : Walker} {x y p q r : VId}
    (h : m.tet4 w = some (x, y, p, q)) (h' : m.tet4 w' = some (x, y, q, r)) :
    m.ringStep w = some w' :=
  hm.toAdj_of_tri (tet4_parts (tet4_twin h)).2.2.2 (tet4_parts h').2.2.2

theorem ConsistentT.ring_tet4 {m : Mesh P V T} (hm : ConsistentT m) {w w' : Walker} {x y p q : VId}
    (h : m.tet4 w = some (x, y, p, q)) (h' : m.ringStep w = some w') :
    ∃ r, m.tet4 w' = some (x, y, q, r) := by
  obtain ⟨w'', h1, h2⟩ := hm.adj_tri (tet4_parts (tet4_twin h)).2.2.2
  rw [Mesh.ringStep, h1] at h'
  cases h'
  exact tri_tet4 h2

theorem ConsistentT.ring_ne {m : Mesh P V T} (hm : ConsistentT m) {w w' : Walker}
    (h' : m.ringStep w = some w') : w'.tet ≠ w.tet := by
  simp only [Mesh.ringStep, Mesh.toAdj, Option.map_eq_some_iff] at h'
  obtain ⟨t, h1, rfl⟩ := h'
  exact hm.adj.no_self hm.distinct h1 _

/-- The four vertices are different. -/
theorem ConsistentT.ne4 {m : Mesh P V T} (hm : ConsistentT m) {w : Walker} {a b c d : VId}
    (h : m.tet4 w = some (a, b, c, d)) : a ≠ b ∧ a ≠ c ∧ a ≠ d ∧ b ≠ c ∧ b ≠ d ∧ c ≠ d := by
  obtain ⟨t, h1, h2⟩ := Mesh.tet4_iff.1 h
  have := Tet.distinct_vals (hm.distinct _ _ h1) w.edge
  simp only [Tet.tet, Prod.mk.injEq] at h2
  rw [h2.1, h2.2.1, h2.2.2.1, h2.2.2.2] at this
  exact this

/-- A directed edge of a tet belongs to one walker. -/
theorem ConsistentT.walker_eq {m : Mesh P V T} (hm : ConsistentT m) {w w' : Walker} {a b : VId}
    (h : m.edge w = some (a, b)) (h' : m.edge w' = some (a, b)) (ht : w.tet = w'.tet) : w = w' := by
  simp only [Mesh.edge, Option.map_eq_some_iff] at h h'
  obtain ⟨t, h1, h2⟩ := h
  obtain ⟨t', h3, h4⟩ := h'
  rw [← ht, h1] at h3
  cases h3
  have hd := hm.distinct _ _ h1
  simp only [Tet.edge_eq, pedge, Prod.mk.injEq] at h2 h4
  have e1 : perms w.edge 0 = perms w'.edge 0 := hd (h2.1.trans h4.1.symm)
  have e2 : perms w.edge 1 = perms w'.edge 1 := hd (h2.2.trans h4.2.symm)
  have : ∀ e e', perms e 0 = perms e' 0 → perms e 1 = perms e' 1 → e = e' := by decide
  exact (Walker.mk.injEq .. ▸ ⟨ht, this _ _ e1 e2⟩ : (⟨w.tet, w.edge⟩ : Walker) = ⟨w'.tet, w'.edge⟩)

/-- Two walkers with the same triangle are the same. -/
theorem ConsistentT.tri_eq {m : Mesh P V T} (hm : ConsistentT m) {w w' : Walker} {s : V3}
    (h : m.tri w = some s) (h' : m.tri w' = some s) : w = w' := by
  obtain ⟨t, h1, h2⟩ := Mesh.tri_iff.1 h
  obtain ⟨t', h3, h4⟩ := Mesh.tri_iff.1 h'
  obtain ⟨h5, h6⟩ := hm.tunique _ _ _ _ _ _ h1 h3 (h4.trans h2.symm)
  exact (Walker.mk.injEq .. ▸ ⟨h5.symm, h6.symm⟩ : (⟨w.tet, w.edge⟩ : Walker) = ⟨w'.tet, w'.edge⟩)

/-! ## Same tets -/

/-- The entries of a quadruple as a list. -/
def list4 (q : V4) : List VId := [q.1, q.2.1, q.2.2.1, q.2.2.2]

theorem mem_list4 (q : V4) (v : VId) : v ∈ list4 q ↔ ∃ i, v = quad q i := by
  obtain ⟨a, b, c, d⟩ := q
  simp [list4, quad, Fin.exists_fin_succ]

theorem SameTet.mem {p q : V4} (h : SameTet p q) (v : VId) : v ∈ list4 p ↔ v ∈ list4 q := by
  obtain ⟨σ, -, h⟩ := h
  rw [mem_list4, mem_list4]
  constructor
  · rintro ⟨i, rfl⟩
    exact ⟨σ.symm i, by rw [h]; simp⟩
  · rintro ⟨i, rfl⟩
    exact ⟨σ i, h i⟩

theorem sameTet_iff {p q : V4} : SameTet p q ↔ ∃ c : Code,
    q = (quad p (perms c 0), quad p (perms c 1), quad p (perms c 2), quad p (perms c 3)) := by
  rw [SameTet, evenRearr_iff]
  constructor
  · rintro ⟨c, hc⟩
    refine ⟨c, quad_inj fun j => ?_⟩
    rw [hc]
    rcases fin4 j with rfl | rfl | rfl | rfl <;> rfl
  · rintro ⟨c, rfl⟩
    refine ⟨c, fun j => ?_⟩
    rcases fin4 j with rfl | rfl | rfl | rfl <;> rfl

theorem sameTet_code {p q : V4} (c : Code)
    (h : q = (quad p (perms c 0), quad p (perms c 1), quad p (perms c 2), quad p (perms c 3))) :
    SameTet p q := sameTet_iff.2 ⟨c, h⟩

theorem SameTet.trans' {p q r : V4} (h : SameTet p q) (h' : SameTet q r) : SameTet p r :=
  EvenRearr.trans h h'

theorem SameTet.symm' {p q : V4} (h : SameTet p q) : SameTet q p := EvenRearr.symm h

theorem sameTet_congr {p q : V4} (h : SameTet p q) (r : V4) : SameTet p r ↔ SameTet q r :=
  ⟨fun h' => SameTet.trans' (SameTet.symm' h) h', fun h' => SameTet.trans' h h'⟩

theorem HasTet.same {m : Mesh P V T} {p q : V4} (h : HasTet m p) (hs : SameTet p q) : HasTet m q := by
  obtain ⟨k, t, h1, h2⟩ := hasTet_iff.1 h
  exact hasTet_iff.2 ⟨k, t, h1, EvenRearr.trans h2 hs⟩

theorem hasTri_iff {m : Mesh P V T} {a b c : VId} : HasTri m (a, b, c) ↔ ∃ d, HasTet m (a, b, c, d) := by
  constructor
  · rintro ⟨w, hw⟩
    obtain ⟨d, hd⟩ := tri_tet4 hw
    exact ⟨d, w, hd⟩
  · rintro ⟨d, w, hw⟩
    exact ⟨w, (tet4_parts hw).2.2.2⟩

theorem ConsistentT.hasEdge_tet {m : Mesh P V T} (hm : ConsistentT m) {a b : VId} :
    HasEdge m a b ↔ ∃ c d, HasTet m (a, b, c, d) := by
  rw [hm.hasEdge]
  constructor
  · rintro ⟨k, t, e, h1, h2⟩
    simp only [Tet.edge, Prod.mk.injEq] at h2
    refine ⟨t.third e, t.fourth e, ⟨k, e⟩, Mesh.tet4_iff.2 ⟨t, h1, ?_⟩⟩
    simp only [Tet.tet, h2]
  · rintro ⟨c, d, w, hw⟩
    have := (tet4_parts hw).2.2.1
    simp only [Mesh.edge, Option.map_eq_some_iff] at this
    obtain ⟨t, h1, h2⟩ := this
    exact ⟨_, t, _, h1, h2⟩

theorem setTets_append (vs : IdMap (Vertex P V)) (L L' : List (VId × Walker)) :
    setTets (setTets vs L) L' = setTets vs (L ++ L') := by
  simp [setTets, List.foldl_append]

/-- An oriented triangle shared by the first two lists of vertices. -/
theorem tri_common {S S' : List VId} {u v : VId} (h : ∀ z, z ∈ S → z ∈ S' → z = u ∨ z = v)
    {a b c : VId} (hab : a ≠ b) (hac : a ≠ c) (hbc : b ≠ c) (ha : a ∈ S) (hb : b ∈ S) (hc : c ∈ S)
    (ha' : a ∈ S') (hb' : b ∈ S') (hc' : c ∈ S') : False := by
  rcases h a ha ha' with rfl | rfl <;> rcases h b hb hb' with rfl | rfl <;>
    rcases h c hc hc' with rfl | rfl <;> simp_all

theorem replaces_logic {h a0 a1 a2 a3 n0 n1 n2 m0 m1 : Prop} (h4 : h → ¬ n0)
    (h5 : n1 → ¬ n0 ∧ ¬ a3 ∧ ¬ a2) (h6 : n2 → ¬ n0 ∧ ¬ a3 ∧ ¬ a2) :
    (((h ∧ ¬ a0 ∧ ¬ a1) ∨ n0 ∨ n1 ∨ n2) ∧ ¬ n0 ∧ ¬ a3 ∧ ¬ a2 ∨ m0 ∨ m1) ↔
      ((h ∧ ¬ a0 ∧ ¬ a1 ∧ ¬ a2 ∧ ¬ a3) ∨ n1 ∨ m0 ∨ m1 ∨ n2) := by
  by_cases h <;> by_cases n0 <;> by_cases n1 <;> by_cases n2 <;> simp_all <;> tauto

theorem flip44_sem {m : Mesh P V T} (hm : ConsistentT m) {w a1 a2 a3 : Walker} {x y p q r s : VId}
    (hw : m.tet4 w = some (x, y, p, q)) (s1 : m.ringStep w = some a1) (s2 : m.ringStep a1 = some a2)
    (s3 : m.ringStep a2 = some a3) (s4 : m.ringStep a3 = some w) (hne : a2 ≠ w)
    (f1 : m.fourth a1 = some r) (f2 : m.fourth a2 = some s) (hno : ¬ HasEdge m p r)
    (roomT : m.tets.size < idMax) (roomE : m.edges.size < idMax) :
    ∃ m' id2, m.flip44Unchecked w =
        some (m', [⟨a1.tet, 0⟩, ⟨w.tet, 2⟩, ⟨a3.tet, 3⟩, ⟨id2, 0⟩]) ∧
      m.tets.get id2 = none ∧ [w.tet, a1.tet, a2.tet, a3.tet, id2].Nodup ∧
      FlipFacts m m' [(x, y, p, q), (x, y, q, r), (x, y, r, s), (x, y, s, p)]
        [(r, p, q, y), (r, p, y, s), (r, p, s, x), (r, p, x, q)]
        [w.tet, a1.tet, a2.tet, a3.tet, id2] ∧
      m'.tet4 ⟨a1.tet, 0⟩ = some (r, p, q, y) ∧ m'.tet4 ⟨w.tet, 2⟩ = some (r, p, y, s) ∧
      m'.tet4 ⟨a3.tet, 3⟩ = some (r, p, s, x) ∧ m'.tet4 ⟨id2, 0⟩ = some (r, p, x, q) ∧
      m'.tets.get a2.tet = none ∧
      (∃ eid e0 ue0, m.edges.get eid = none ∧ m.edges.get e0 = some ue0 ∧
        ue0.vertices = sorted2 (x, y) ∧ ∀ i, m'.edges.get i =
          if i = e0 then none else if i = eid then some (UEdge.new (p, r)) else m.edges.get i) ∧
      m'.tets.size = m.tets.size ∧ m'.edges.size = m.edges.size := by
  -- the ring
  obtain ⟨r', g1⟩ := hm.ring_tet4 hw s1
  obtain rfl : r = r' := by have := (tet4_parts g1).2.1; rw [f1] at this; simpa using this
  obtain ⟨s', g2⟩ := hm.ring_tet4 g1 s2
  obtain rfl : s = s' := by have := (tet4_parts g2).2.1; rw [f2] at this; simpa using this
  obtain ⟨p', g3⟩ := hm.ring_tet4 g2 s3
  obtain ⟨q', g4⟩ := hm.ring_tet4 g3 s4
  rw [hw] at g4
  obtain ⟨rfl, rfl⟩ : p = p' ∧ q = q' := by simpa using g4
  have h31 : a3 ≠ a1 := by
    rintro rfl
    rw [s4] at s2
    exact hne (by simpa using s2.symm)
  have n10 := hm.ring_ne s1
  have n21 := hm.ring_ne s2
  have n32 := hm.ring_ne s3
  have n03 := hm.ring_ne s4
  have n20 : a2.tet ≠ w.tet := fun e =>
    hne (hm.walker_eq (tet4_parts g2).2.2.1 (tet4_parts hw).2.2.1 e)
  have n31 : a3.tet ≠ a1.tet := fun e =>
    h31 (hm.walker_eq (tet4_parts g3).2.2.1 (tet4_parts g1).2.2.1 e)
  have hpr : p ≠ r := by
    rintro rfl
    exact hne (hm.tri_eq (tet4_parts g2).2.2.2 (tet4_parts hw).2.2.2)
  have hqs : q ≠ s := by
    rintro rfl
    exact h31 (hm.tri_eq (tet4_parts g3).2.2.2 (tet4_parts g1).2.2.2)
  obtain ⟨xy, xp, xq, yp, yq, pq⟩ := hm.ne4 hw
  obtain ⟨-, -, xr, -, yr, qr⟩ := hm.ne4 g1
  obtain ⟨-, -, xs, -, ys, rs⟩ := hm.ne4 g2
  obtain ⟨-, -, -, -, -, sp⟩ := hm.ne4 g3
  -- the first flip
  obtain ⟨m1, id2, x1, fr, -, i0, i1, F1, b0, b1, b2, ⟨eid, ef, eget⟩, sz1, esz1⟩ :=
    flip23_sem hm (tet4_twin hw) s1 f1 hpr hno roomT roomE
  change id2 ≠ w.tet at i0
  change m1.tet4 ⟨w.tet, 3⟩ = _ at b0
  have i3 : id2 ≠ a3.tet := by
    rintro rfl
    obtain ⟨t, h, -⟩ := Mesh.tet4_iff.1 g3
    rw [fr] at h; cases h
  have i2 : id2 ≠ a2.tet := by
    rintro rfl
    obtain ⟨t, h, -⟩ := Mesh.tet4_iff.1 g2
    rw [fr] at h; cases h
  have c0 : m1.tet4 ⟨w.tet, 2⟩ = some (y, x, r, p) := tet4_code b0 2
  have c3 : m1.tet4 a3.twin = some (y, x, p, s) := by
    rw [F1.same]
    · exact tet4_twin g3
    · change a3.tet ∉ [w.tet, a1.tet, id2]
      simp [n31, n03.symm, i3.symm]
  have c2 : m1.tet4 a2.twin = some (y, x, s, r) := by
    rw [F1.same]
    · exact tet4_twin g2
    · change a2.tet ∉ [w.tet, a1.tet, id2]
      simp [n20, n21, i2.symm]
  have rep1 := F1.rep.2
  have noT : ¬ HasTri m1 (p, r, s) := by
    intro h
    obtain ⟨z, h⟩ := hasTri_iff.1 h
    have hz := h
    rcases (rep1 _).1 h with ⟨h1, -⟩ | ⟨n, h1, h2⟩
    · exact hno (hm.hasEdge_tet.2 ⟨s, z, h1⟩)
    · have := (SameTet.mem h2 s).2 (by simp [list4])
      simp only [List.mem_cons, List.not_mem_nil, or_false] at h1
      rcases h1 with rfl | rfl | rfl <;> simp [list4] at this <;>
        rcases this with h | h | h | h <;> simp_all
  have t1 := F1.cons.ringStep_of c0 c3
  have t2 := F1.cons.ringStep_of c3 c2
  have t3 := F1.cons.ringStep_of c2 c0
  -- the second flip
  obtain ⟨m2, x2, -, -, -, -, -, F2, d0, d3, d2, ⟨e0, ue0, k1, k2, k3⟩, sz2, esz2⟩ :=
    flip32_sem F1.cons c0 t1 t2 t3 (tet4_parts c3).2.1 noT
  change m2.tet4 ⟨w.tet, 3⟩ = _ at d0
  change m2.tet4 ⟨a3.tet, 3⟩ = _ at d3
  change m2.tets.get a2.tet = _ at d2
  have rep2 := F2.rep.2
  have e1 : m2.tet4 ⟨a1.tet, 3⟩ = some (y, q, p, r) := by
    rw [F2.same]
    · exact b1
    · change a1.tet ∉ [w.tet, a3.tet, a2.tet]
      simp [n10, n31.symm, n21.symm]
  have e2 : m2.tet4 ⟨id2, 3⟩ = some (q, x, p, r) := by
    rw [F2.same]
    · exact b2
    · change id2 ∉ [w.tet, a3.tet, a2.tet]
      simp [i0, i3, i2]
  have y0 : m2.tet4 ⟨a1.tet, 0⟩ = some (r, p, q, y) := tet4_code e1 _
  have y1 : m2.tet4 ⟨w.tet, 2⟩ = some (r, p, y, s) := tet4_code d0 2
  have y2 : m2.tet4 ⟨a3.tet, 3⟩ = some (r, p, s, x) := d3
  have y3 : m2.tet4 ⟨id2, 0⟩ = some (r, p, x, q) := tet4_code e2 0
  have u1 := F2.cons.ringStep_of y0 y1
  have u2 := F2.cons.ringStep_of y1 y2
  have u3 := F2.cons.ringStep_of y2 y3
  have ee : e0 ≠ eid := by
    rintro rfl
    rw [eget, if_pos rfl] at k1
    cases k1
    have : sorted2 (p, r) = sorted2 (y, x) := k2
    rw [sorted2_eq_iff] at this
    simp only [Prod.mk.injEq, Prod.swap] at this
    rcases this with ⟨h, -⟩ | ⟨h, -⟩
    · exact yp h
    · exact yr h
  refine ⟨m2, id2, ?_, fr, ?_, ⟨F2.cons, ⟨?_, ?_⟩, ⟨?_, ?_⟩, ?_, ?_⟩, y0, y1, y2, y3, d2,
    ⟨eid, e0, ue0, ef, ?_, ?_, ?_⟩, ?_, ?_⟩
  · have v1 : (⟨w.tet, 2⟩ : Walker) ≠ ⟨a1.tet, 0⟩ := fun h => n10 (Walker.mk.inj h).1.symm
    have v2 : (⟨a3.tet, 3⟩ : Walker) ≠ ⟨a1.tet, 0⟩ := fun h => n31 (Walker.mk.inj h).1
    have v3 : (⟨id2, 0⟩ : Walker) ≠ ⟨a1.tet, 0⟩ := fun h => i1 (Walker.mk.inj h).1
    unfold Mesh.flip44Unchecked
    refine (bind_step x1 _).trans ?_
    refine (bind_step x2 _).trans ?_
    refine (bind_step u1 _).trans ?_
    refine (if_neg v1).trans ?_
    refine (bind_step u2 _).trans ?_
    refine (if_neg v2).trans ?_
    refine (bind_step u3 _).trans ?_
    exact if_neg v3
  · simp only [List.nodup_cons, List.mem_cons, List.not_mem_nil, or_false, not_or, List.nodup_nil,
      not_false_eq_true, and_true]
    exact ⟨⟨n10.symm, n20.symm, n03, i0.symm⟩, ⟨n21.symm, n31.symm, i1.symm⟩, ⟨n32.symm, i2.symm⟩, i3.symm⟩
  · simp only [List.mem_cons, List.not_mem_nil, or_false]
    rintro _ (rfl | rfl | rfl | rfl)
    exacts [⟨_, hw⟩, ⟨_, g1⟩, ⟨_, g2⟩, ⟨_, g3⟩]
  · intro t
    have A0 := sameTet_congr (p := (y, x, q, p)) (q := (x, y, p, q)) (sameTet_code 2 rfl) t
    have A2 := sameTet_congr (p := (y, x, s, r)) (q := (x, y, r, s)) (sameTet_code 2 rfl) t
    have A3 := sameTet_congr (p := (y, x, p, s)) (q := (x, y, s, p)) (sameTet_code 2 rfl) t
    have N0 := sameTet_congr (p := (x, y, p, r)) (q := (y, x, r, p)) (sameTet_code 2 rfl) t
    have N1 := sameTet_congr (p := (y, q, p, r)) (q := (r, p, q, y)) (sameTet_code 0 rfl) t
    have N2 := sameTet_congr (p := (q, x, p, r)) (q := (r, p, x, q)) (sameTet_code 0 rfl) t
    have M0 := sameTet_congr (p := (p, r, s, y)) (q := (r, p, y, s)) (sameTet_code 2 rfl) t
    have hx1 : SameTet (y, q, p, r) t → x ∉ list4 t := by
      intro h; rw [← SameTet.mem h]; simp [list4, xy, xq, xp, xr]
    have hy2 : SameTet (q, x, p, r) t → y ∉ list4 t := by
      intro h; rw [← SameTet.mem h]; simp [list4, xy.symm, yq, yp, yr]
    have hxy : ∀ a b, SameTet (y, x, a, b) t → x ∈ list4 t ∧ y ∈ list4 t := by
      intro a b h; rw [← SameTet.mem h, ← SameTet.mem h]; simp [list4]
    have h1 := hxy r p
    have h2 := hxy p s
    have h3 := hxy s r
    have h4 : HasTet m t → ¬ SameTet (y, x, r, p) t := by
      intro h h'
      refine hno (hm.hasEdge_tet.2 ⟨x, y, ?_⟩)
      exact HasTet.same h (SameTet.trans' (SameTet.symm' h') (sameTet_code 0 rfl))
    rw [rep2, rep1]
    simp only [List.mem_cons, List.not_mem_nil, or_false, forall_eq_or_imp, forall_eq,
      exists_eq_or_imp, exists_eq_left]
    rw [← A0, ← A2, ← A3, N0, ← N1, ← N2, ← M0]
    have h5 : SameTet (y, q, p, r) t → ¬ SameTet (y, x, r, p) t ∧ ¬ SameTet (y, x, p, s) t ∧
        ¬ SameTet (y, x, s, r) t := fun h => ⟨fun g => hx1 h (h1 g).1, fun g => hx1 h (h2 g).1,
        fun g => hx1 h (h3 g).1⟩
    have h6 : SameTet (q, x, p, r) t → ¬ SameTet (y, x, r, p) t ∧ ¬ SameTet (y, x, p, s) t ∧
        ¬ SameTet (y, x, s, r) t := fun h => ⟨fun g => hy2 h (h1 g).2, fun g => hy2 h (h2 g).2,
        fun g => hy2 h (h3 g).2⟩
    clear A0 A2 A3 N0 N1 N2 M0 hx1 hy2 hxy h1 h2 h3
    exact replaces_logic h4 h5 h6
  · intro t ht
    rw [F2.locks.tri t ht]
    by_cases h1 : HasTri m1 t
    · exact F1.locks.tri t h1
    · refine ⟨fun ⟨k, h, _⟩ => absurd ⟨k, h⟩ h1, fun ⟨k, h, _⟩ => ?_⟩
      exfalso
      obtain ⟨a, b, c⟩ := t
      obtain ⟨d, hd⟩ := tri_tet4 h
      obtain ⟨ab, ac, -, bc, -, -⟩ := hm.ne4 hd
      obtain ⟨z, hz⟩ := hasTri_iff.1 ht
      rw [hasTri_iff] at h1
      have old : SameTet (y, x, q, p) (a, b, c, d) ∨ SameTet (x, y, q, r) (a, b, c, d) := by
        by_contra hcon
        rw [not_or] at hcon
        refine h1 ⟨d, (rep1 _).2 (.inl ⟨⟨k, hd⟩, ?_⟩)⟩
        simpa using hcon
      have new : SameTet (p, r, s, y) (a, b, c, z) ∨ SameTet (r, p, s, x) (a, b, c, z) := by
        rcases (rep2 _).1 hz with ⟨h, -⟩ | h
        · exact absurd ⟨z, h⟩ h1
        · simpa using h
      have m4 : ∀ d, a ∈ list4 (a, b, c, d) ∧ b ∈ list4 (a, b, c, d) ∧ c ∈ list4 (a, b, c, d) := by
        simp [list4]
      have com : ∀ {P Q : V4} {u v : VId}, SameTet P (a, b, c, d) → SameTet Q (a, b, c, z) →
          (∀ z, z ∈ list4 P → z ∈ list4 Q → z = u ∨ z = v) → False := by
        intro P Q u v hP hQ h
        have h1 := m4 d
        have h2 := m4 z
        rw [← SameTet.mem hP, ← SameTet.mem hP, ← SameTet.mem hP] at h1
        rw [← SameTet.mem hQ, ← SameTet.mem hQ, ← SameTet.mem hQ] at h2
        exact tri_common h ab ac bc h1.1 h1.2.1 h1.2.2 h2.1 h2.2.1 h2.2.2
      have _ := pq.symm
      have _ := qr.symm
      have _ := hqs.symm
      have _ := xy.symm
      have _ := yq.symm
      have _ := xq.symm
      have _ := yr.symm
      have _ := xr.symm
      have _ := xp.symm
      have _ := yp.symm
      rcases old with o | o <;> rcases new with n | n
      · refine com (u := y) (v := p) o n ?_
        simp only [list4, List.mem_cons, List.not_mem_nil, or_false]
        rintro z (rfl | rfl | rfl | rfl) h <;> simp_all
      · refine com (u := x) (v := p) o n ?_
        simp only [list4, List.mem_cons, List.not_mem_nil, or_false]
        rintro z (rfl | rfl | rfl | rfl) h <;> simp_all
      · refine com (u := y) (v := r) o n ?_
        simp only [list4, List.mem_cons, List.not_mem_nil, or_false]
        rintro z (rfl | rfl | rfl | rfl) h <;> simp_all
      · refine com (u := x) (v := r) o n ?_
        simp only [list4, List.mem_cons, List.not_mem_nil, or_false]
        rintro z (rfl | rfl | rfl | rfl) h <;> simp_all
  · intro a b h
    rw [F2.locks.edge a b h, F1.locks.edge a b]
    obtain ⟨e, ue, h1, h2⟩ := h
    rw [k3] at h1
    split_ifs at h1
    exact ⟨e, ue, h1, h2⟩
  · intro z hz
    simp only [List.mem_cons, List.not_mem_nil, or_false, not_or] at hz
    rw [F2.same, F1.same]
    · change z.tet ∉ [w.tet, a1.tet, id2]
      simp [hz]
    · change z.tet ∉ [w.tet, a3.tet, a2.tet]
      simp [hz]
  · obtain ⟨L1, l1⟩ := F1.rest
    obtain ⟨L2, l2⟩ := F2.rest
    refine ⟨L1 ++ L2, ?_⟩
    rw [l2, l1, ← setTets_append]
  · rw [eget, if_neg ee] at k1
    exact k1
  · rw [k2, sorted2_eq_iff]
    exact .inr rfl
  · intro i
    rw [k3, eget]
  · omega
  · omega

end Tet
