import Verif.Model.FlipQuality
import Verif.Spec.FlipQuality
import Verif.Proofs.Unlocked
import Verif.Proofs.Integrity
import Verif.Proofs.DelaunaySearch
import Verif.Props.Traverse
import Mathlib.Algebra.Order.BigOperators.Group.Finset

/-!
# Running `flip_quality`
-/

namespace Tet
open Spec
variable {P V T K : Type} [LinearOrder K]

theorem triLocked_of {m : Mesh P V T} (hm : ConsistentT m) {w : Walker} {s : V3} (h : m.tri w = some s) :
    ∃ l, m.triLocked w = some l ∧ (l = true ↔ LockedTri m s) := by
  obtain ⟨t, h1, rfl⟩ := Mesh.tri_iff.1 h
  exact ⟨_, by rw [Mesh.triLocked, h1]; rfl, (lockedTri_iff hm h1).symm⟩

theorem ringStep_of {m : Mesh P V T} (hm : ConsistentT m) {w : Walker} {x y p q : VId}
    (h : m.tet4 w = some (x, y, p, q)) : ∃ w' r, m.ringStep w = some w' ∧ m.tet4 w' = some (x, y, q, r) := by
  obtain ⟨w', h1, -⟩ := hm.adj_tri (tet4_parts (tet4_twin h)).2.2.2
  obtain ⟨r, hr⟩ := hm.ring_tet4 h h1
  exact ⟨w', r, h1, hr⟩

theorem edge_locked_of {m : Mesh P V T} (hm : ConsistentT m) {w : Walker} {x y p q : VId}
    (h : m.tet4 w = some (x, y, p, q)) : ∃ e ue, m.undirEdge w = some e ∧ m.edges.get e = some ue ∧
      (ue.locked = true ↔ LockedEdge m x y) := by
  obtain ⟨t, h1, h2⟩ := Mesh.tet4_iff.1 h
  obtain ⟨ue, h3, h4⟩ := hm.eptr _ t w.edge h1
  have h5 : ue.vertices = (min x y, max x y) := by
    rw [h4, min_max_sorted2, Tet.edge]
    simp only [Tet.tet, Prod.mk.injEq] at h2
    rw [h2.1, h2.2.1]
  refine ⟨_, ue, by rw [Mesh.undirEdge, h1]; rfl, h3, ?_⟩
  constructor
  · exact fun hl => ⟨_, ue, h3, h5, hl⟩
  · rintro ⟨e', ue', k1, k2, k3⟩
    have := hm.eunique _ _ _ _ h3 k1 (h5.trans k2.symm)
    rw [← this, h3] at k1
    cases k1
    exact k3

theorem flip32Unlocked_eval {m : Mesh P V T} (hm : ConsistentT m) {w o1 o2 o3 : Walker} {x y c d e f : VId}
    (hw : m.tet4 w = some (x, y, c, d)) (s1 : m.ringStep w = some o1) (s2 : m.ringStep o1 = some o2)
    (s3 : m.ringStep o2 = some o3) (h1 : m.tet4 o1 = some (x, y, d, e)) (h2 : m.tet4 o2 = some (x, y, e, f)) :
    m.flip32Unlocked w = some (m, none) ∨
    (o3 = w ∧ ¬ LockedEdge m x y ∧ (∀ u ∈ [c, d, e], ¬ LockedTri m (x, y, u)) ∧
      m.flip32Unlocked w = (m.flip32Unchecked w).map fun r => (r.1, some r.2)) := by
  obtain ⟨l0, e0, k0⟩ := triLocked_of hm (tet4_parts hw).2.2.2
  obtain ⟨l1, e1, k1⟩ := triLocked_of hm (tet4_parts h1).2.2.2
  obtain ⟨l2, e2, k2⟩ := triLocked_of hm (tet4_parts h2).2.2.2
  obtain ⟨eid, ue, e3, e4, k3⟩ := edge_locked_of hm hw
  unfold Mesh.flip32Unlocked
  simp only [s1, s2, s3, e0, e1, e2, e3, e4, Option.bind_eq_bind, Option.bind_some, Option.pure_def]
  cases l0
  · cases l1
    · cases l2
      · cases hl : ue.locked
        · by_cases ho : o3 = w
          · right
            refine ⟨ho, by simpa [hl] using k3, ?_, ?_⟩
            · intro u hu
              simp only [List.mem_cons, List.not_mem_nil, or_false] at hu
              rcases hu with rfl | rfl | rfl
              · simpa using k0
              · simpa using k1
              · simpa using k2
            · simp only [Bool.false_eq_true, if_false, ho, ne_eq, not_true_eq_false]
              cases m.flip32Unchecked w <;> rfl
          · left
            simp [ho]
        · left
          simp
      · left
        simp
    · left
      simp
  · left
    simp

/-! ## Queue -/

/-- The start of the edge is a solid vertex of the mesh. -/
def QOk (m : Mesh P V T) : EdgeOrTri → Prop
  | .edge e => InMesh m e.1 ∧ e.1 ≠ GHOST
  | .tri _ => True

theorem le_ghost {m : Mesh P V T} (hm : ConsistentT m) {u : VId} (h : InMesh m u) : u ≤ GHOST := by
  obtain ⟨w, hw⟩ := h
  simp only [Mesh.first, Option.map_eq_some_iff] at hw
  obtain ⟨t, h1, h2⟩ := hw
  rcases hm.vlive _ t (firstIdx w.edge) h1 with h3 | ⟨x, t', h3, -⟩
  · rw [← h2]
    exact le_of_eq h3
  · rw [← h2]
    exact le_of_lt (hm.stored.1.lt_max h3)

theorem qok_edge {m : Mesh P V T} (hm : ConsistentT m) {w : Walker} {p : VId × VId} (h : m.edge w = some p) :
    QOk m (.edge (sorted2 p)) := by
  obtain ⟨a, b⟩ := p
  obtain ⟨c, d, h4⟩ := edge_tet4 h
  have ha : InMesh m a := ⟨w, (tet4_parts h4).1⟩
  have hb : InMesh m b := inMesh_second h
  obtain ⟨hne, -⟩ := hm.ne4 h4
  have := le_ghost hm ha
  have := le_ghost hm hb
  simp only [QOk, sorted2]
  split_ifs with hc
  · exact ⟨hb, by omega⟩
  · refine ⟨ha, ?_⟩
    rintro rfl
    have : (b : Nat) = GHOST := by omega
    exact hne this.symm

theorem sorted2_sorted2 (p : VId × VId) : sorted2 (sorted2 p) = sorted2 p := by
  simp only [sorted2]
  split_ifs <;> first | rfl | omega

theorem after32_of {m : Mesh P V T} (hm : ConsistentT m) {w0 w1 : Walker} {p0 p1 : V4}
    (h0 : m.tet4 ⟨w0.tet, 3⟩ = some p0) (h1 : m.tet4 ⟨w1.tet, 3⟩ = some p1) :
    ∃ l, m.after32 [w0, w1] = some l ∧ ∀ y ∈ l, QOk m y := by
  obtain ⟨t0, k0, -⟩ := Mesh.tet4_iff.1 h0
  obtain ⟨t1, k1, -⟩ := Mesh.tet4_iff.1 h1
  have live : ∀ x ∈ [w0, w1, w0.nve, w1.nve, w0.pve, w1.pve], ∃ t, m.tets.get x.tet = some t := by
    intro x hx
    simp only [List.mem_cons, List.not_mem_nil, or_false] at hx
    rcases hx with rfl | rfl | rfl | rfl | rfl | rfl
    · exact ⟨t0, k0⟩
    · exact ⟨t1, k1⟩
    · exact ⟨t0, k0⟩
    · exact ⟨t1, k1⟩
    · exact ⟨t0, k0⟩
    · exact ⟨t1, k1⟩
  obtain ⟨r1, j1, -⟩ := mapM_all (f := m.tri) _ fun x hx => by
    obtain ⟨t, ht⟩ := live x hx
    exact ⟨_, by rw [Mesh.tri, ht]; rfl⟩
  obtain ⟨r2, j2, j3⟩ := mapM_all (f := m.edge) _ fun x hx => by
    obtain ⟨t, ht⟩ := live x hx
    exact ⟨_, by rw [Mesh.edge, ht]; rfl⟩
  refine ⟨_, by simp only [Mesh.after32, j1, j2, Option.bind_eq_bind, Option.bind_some, Option.pure_def]; rfl, ?_⟩
  intro y hy
  rcases List.mem_append.1 hy with hy | hy
  · obtain ⟨s, -, rfl⟩ := List.mem_map.1 hy
    trivial
  · obtain ⟨e, he, rfl⟩ := List.mem_map.1 hy
    have : some e ∈ r2.map some := List.mem_map.2 ⟨e, he, rfl⟩
    rw [← j3] at this
    obtain ⟨x, -, hx⟩ := List.mem_map.1 this
    exact qok_edge hm hx

theorem after23_of {m : Mesh P V T} (hm : ConsistentT m) {w0 w1 w2 : Walker} {p0 p1 p2 : V4}
    (h0 : m.tet4 ⟨w0.tet, 3⟩ = some p0) (h1 : m.tet4 ⟨w1.tet, 3⟩ = some p1) (h2 : m.tet4 ⟨w2.tet, 3⟩ = some p2) :
    ∃ l, m.after23 [w0, w1, w2] = some l ∧ ∀ y ∈ l, QOk m y := by
  obtain ⟨t0, k0, -⟩ := Mesh.tet4_iff.1 h0
  obtain ⟨t1, k1, -⟩ := Mesh.tet4_iff.1 h1
  obtain ⟨t2, k2, -⟩ := Mesh.tet4_iff.1 h2
  have live : ∀ x ∈ [w0, w1, w2, w0.twin, w1.twin, w2.twin], ∃ t, m.tets.get x.tet = some t := by
    intro x hx
    simp only [List.mem_cons, List.not_mem_nil, or_false] at hx
    rcases hx with rfl | rfl | rfl | rfl | rfl | rfl
    · exact ⟨t0, k0⟩
    · exact ⟨t1, k1⟩
    · exact ⟨t2, k2⟩
    · exact ⟨t0, k0⟩
    · exact ⟨t1, k1⟩
    · exact ⟨t2, k2⟩
  obtain ⟨r1, j1, -⟩ := mapM_all (f := m.tri) _ fun x hx => by
    obtain ⟨t, ht⟩ := live x hx
    exact ⟨_, by rw [Mesh.tri, ht]; rfl⟩
  obtain ⟨r2, j2, j3⟩ := mapM_all (f := m.edge) [w0, w1, w2] fun x hx => by
    obtain ⟨t, ht⟩ := live x (by simp at hx ⊢; tauto)
    exact ⟨_, by rw [Mesh.edge, ht]; rfl⟩
  refine ⟨_, by simp only [Mesh.after23, j1, j2, Option.bind_eq_bind, Option.bind_some, Option.pure_def]; rfl, ?_⟩
  intro y hy
  rcases List.mem_append.1 hy with hy | hy
  · obtain ⟨s, -, rfl⟩ := List.mem_map.1 hy
    trivial
  · obtain ⟨e, he, rfl⟩ := List.mem_map.1 hy
    have : some e ∈ r2.map some := List.mem_map.2 ⟨e, he, rfl⟩
    rw [← j3] at this
    obtain ⟨x, -, hx⟩ := List.mem_map.1 this
    exact qok_edge hm hx

theorem qualityQueue_of {m : Mesh P V T} (hm : ConsistentT m) : ∃ l, m.qualityQueue = some l ∧ ∀ y ∈ l, QOk m y := by
  obtain ⟨r1, j1, -⟩ := mapM_all (f := m.tri)
      (m.tets.keys.flatMap fun k => [⟨k, 0⟩, ⟨k, 1⟩, ⟨k, 2⟩, ⟨k, 3⟩]) fun x hx => by
    obtain ⟨k, hk, hx⟩ := List.mem_flatMap.1 hx
    obtain ⟨t, ht⟩ := Option.isSome_iff_exists.1 (IdMap.mem_keys.1 hk)
    have : x.tet = k := by
      simp only [List.mem_cons, List.not_mem_nil, or_false] at hx
      rcases hx with rfl | rfl | rfl | rfl <;> rfl
    rw [← this] at ht
    exact ⟨_, by rw [Mesh.tri, ht]; rfl⟩
  refine ⟨_, by simp only [Mesh.qualityQueue, j1, Option.bind_eq_bind, Option.bind_some, Option.pure_def]; rfl, ?_⟩
  intro y hy
  rcases List.mem_append.1 hy with hy | hy
  · obtain ⟨ue, he, rfl⟩ := List.mem_map.1 hy
    obtain ⟨e, he⟩ := IdMap.mem_values.1 he
    obtain ⟨k, t, i, h1, h2⟩ := hm.eused e ue he
    obtain ⟨ue', h3, h4⟩ := hm.eptr k t i h1
    rw [h2, he] at h3
    cases h3
    rw [h4, sorted2_sorted2]
    exact qok_edge hm (w := ⟨k, i⟩) (by rw [Mesh.edge, h1]; rfl)
  · obtain ⟨s, -, rfl⟩ := List.mem_map.1 hy
    trivial

/-! ## One round -/

/-- The index is kept up to date or empty. -/
def IndexOk (m : Mesh P V T) : Prop := m.trackTriMap = true ∨ ∀ s, m.triMap s = none

theorem flip32_index {m m' : Mesh P V T} (hm : ConsistentT m) {w o1 o2 : Walker} {x y c d : VId}
    (hw : m.tet4 w = some (x, y, c, d)) (s1 : m.ringStep w = some o1) (s2 : m.ringStep o1 = some o2)
    (s3 : m.ringStep o2 = some w) {ws} (h : m.flip32Unchecked w = some (m', ws)) (hi : IndexOk m) : IndexOk m' := by
  obtain ⟨t0, h0, -⟩ := Mesh.tet4_iff.1 hw
  simp only [Mesh.ringStep, Mesh.toAdj, Option.map_eq_some_iff, Walker.twin] at s1 s2 s3
  obtain ⟨t0', h0', e1⟩ := s1
  rw [h0] at h0'; cases h0'
  obtain ⟨t1, h1, e2⟩ := s2
  obtain ⟨t2, h2, e3⟩ := s3
  have hp : Pre32 m w o1 o2 t0 t1 t2 := ⟨h0, e1, h1, e2, h2, e3⟩
  obtain ⟨m1, at0, at1, at2, ab0, ab1, ab2, hx, hq⟩ := flip32_exec hm hp
  rw [h] at hx
  obtain ⟨rfl, -⟩ := Prod.mk.inj (Option.some.inj hx)
  have ht : m'.trackTriMap = m.trackTriMap := by rw [hq.rest]
  cases hb : m.trackTriMap with
  | true => exact .inl (ht.trans hb)
  | false =>
    right
    rw [hq.tri.off hb]
    exact hi.resolve_left (by simp [hb])

/-- What a round does to the mesh. -/
theorem quality_round {quality : Mesh P V T → V4 → K} {m : Mesh P V T} (hm : ConsistentT m) (hi : IndexOk m)
    {x : EdgeOrTri} (hx : QOk m x) :
    QualityStuck quality m ∨ ∃ N m' l, (∀ fuel ≥ N, m.qualityStep quality fuel x = some (m', l)) ∧
      ((m' = m ∧ l = []) ∨ (QualityFlip quality m m' ∧ IndexOk m' ∧ ∀ y ∈ l, QOk m' y)) := by
  by_cases hroom : Room m
  swap
  · exact .inl (.inr hroom)
  cases x with
  | edge e =>
    obtain ⟨v, u⟩ := e
    obtain ⟨_, r, N, -, h2, h3⟩ := C33_edge hm.toSpec hx.1 hx.2 u
    rcases h3 with ⟨w, rfl, h3⟩ | ⟨rfl, -⟩
    swap
    · refine .inr ⟨N, m, [], fun fuel hf => ?_, .inl ⟨rfl, rfl⟩⟩
      simp [Mesh.qualityStep, h2 fuel hf]
    obtain ⟨c, d, hw⟩ := edge_tet4 h3
    obtain ⟨o1, e, s1, w1⟩ := ringStep_of hm hw
    obtain ⟨o2, f, s2, w2⟩ := ringStep_of hm w1
    obtain ⟨o3, g, s3, w3⟩ := ringStep_of hm w2
    have hf1 := (tet4_parts w1).2.1
    have key : m.flip32Quality quality w =
        if min (min (quality m (v, u, c, d)) (quality m (v, u, d, e))) (quality m (v, u, e, c)) <
          min (quality m (d, c, e, v)) (quality m (c, d, e, u)) then m.flip32Unlocked w else some (m, none) := by
      simp only [Mesh.flip32Quality, s1, hw, hf1, Option.bind_eq_bind, Option.bind_some, Option.pure_def]
    have stay : m.flip32Quality quality w = some (m, none) →
        ∃ N m' l, (∀ fuel ≥ N, m.qualityStep quality fuel (.edge (v, u)) = some (m', l)) ∧
        ((m' = m ∧ l = []) ∨ (QualityFlip quality m m' ∧ IndexOk m' ∧ ∀ y ∈ l, QOk m' y)) := by
      intro hk
      refine ⟨N, m, [], fun fuel hf => ?_, .inl ⟨rfl, rfl⟩⟩
      simp [Mesh.qualityStep, h2 fuel hf, hk]
    split_ifs at key with hq
    swap
    · exact .inr (stay key)
    rcases flip32Unlocked_eval hm hw s1 s2 s3 w1 w2 with h | ⟨rfl, h4, h5, h6⟩
    · exact .inr (stay (key.trans h))
    have himp : Improves quality m [(v, u, c, d), (v, u, d, e), (v, u, e, c)] [(d, c, e, v), (c, d, e, u)] := by
      rw [lt_min_iff] at hq
      simp only [min_lt_iff] at hq
      obtain ⟨q1, q2⟩ := hq
      have : ∃ p ∈ [(v, u, c, d), (v, u, d, e), (v, u, e, c)], quality m p =
          min (min (quality m (v, u, c, d)) (quality m (v, u, d, e))) (quality m (v, u, e, c)) := by
        rcases min_choice (min (quality m (v, u, c, d)) (quality m (v, u, d, e))) (quality m (v, u, e, c)) with h | h
        · rcases min_choice (quality m (v, u, c, d)) (quality m (v, u, d, e)) with h' | h'
          · exact ⟨(v, u, c, d), by simp, by rw [h, h']⟩
          · exact ⟨(v, u, d, e), by simp, by rw [h, h']⟩
        · exact ⟨(v, u, e, c), by simp, by rw [h]⟩
      obtain ⟨p, p1, p2⟩ := this
      refine ⟨p, p1, ?_⟩
      intro q hq
      rw [p2]
      simp only [List.mem_cons, List.not_mem_nil, or_false] at hq
      rcases hq with rfl | rfl
      · simpa [min_lt_iff] using q1
      · simpa [min_lt_iff] using q2
    have hat := FlipAt.flip32 hw s1 s2 s3 hf1 h4 h5
    by_cases hno : HasTri m (d, c, e)
    · exact .inl (.inl ⟨_, _, ⟨_, _, hat, hno⟩, himp⟩)
    right
    obtain ⟨m', k1, k2, -, -, -, k3, k4⟩ := flip32_done hm hw s1 s2 s3 hf1 h4 h5 hno
    obtain ⟨l, k5, k6⟩ := after32_of k2.cons (w0 := ⟨o3.tet, 10⟩) (w1 := ⟨o1.tet, 10⟩) k3 k4
    refine ⟨N, m', l, fun fuel hf => ?_, .inr ⟨⟨_, _, ⟨_, _, k1 ▸ hat, hno, hroom⟩, himp, fun _ => by simp⟩,
      flip32_index hm hw s1 s2 s3 k1 hi, k6⟩⟩
    simp [Mesh.qualityStep, h2 fuel hf, key, h6, k1, k5]
  | tri s =>
    cases ht : m.triMap s with
    | none => exact .inr ⟨0, m, [], fun fuel _ => by simp [Mesh.qualityStep, ht], .inl ⟨rfl, rfl⟩⟩
    | some w =>
    have htrack : m.trackTriMap = true := hi.resolve_right fun h => by simp [h] at ht
    obtain ⟨t, h1, -⟩ := hm.tsound htrack s w ht
    obtain ⟨⟨a, b, c, d⟩, hw⟩ : ∃ q, m.tet4 w = some q := ⟨_, Mesh.tet4_iff.2 ⟨t, h1, rfl⟩⟩
    obtain ⟨o, ho, htri⟩ := hm.adj_tri (tet4_parts hw).2.2.2
    obtain ⟨e, hw'⟩ := tri_tet4 htri
    have hfo := (tet4_parts hw').2.1
    have hae : ∃ o', m.toAdjAe w = some o' ∧ m.fourth o' = some e := by
      refine ⟨t.opp (face w.edge), by rw [Mesh.toAdjAe, h1]; rfl, ?_⟩
      simp only [Mesh.toAdj, h1, Option.map_some, Option.some.injEq] at ho
      have : o.tet = (t.opp (face w.edge)).tet ∧ face o.edge = face (t.opp (face w.edge)).edge := by
        rw [← ho, Tet.adj, turn_eq]
        exact ⟨rfl, face_turnCode _ _⟩
      simp only [Mesh.fourth, Tet.fourth] at hfo ⊢
      rw [← this.1, ← this.2]
      exact hfo
    obtain ⟨o', ha1, ha2⟩ := hae
    have key : m.flip23Quality quality w =
        if min (quality m (a, b, c, d)) (quality m (b, a, c, e)) <
          min (min (quality m (b, a, d, e)) (quality m (a, c, d, e))) (quality m (c, b, d, e))
        then m.flip23Unlocked w else some (m, none) := by
      simp only [Mesh.flip23Quality, ha1, hw, ha2, Option.bind_eq_bind, Option.bind_some, Option.pure_def]
    have stay : m.flip23Quality quality w = some (m, none) →
        ∃ N m' l, (∀ fuel ≥ N, m.qualityStep quality fuel (.tri s) = some (m', l)) ∧
        ((m' = m ∧ l = []) ∨ (QualityFlip quality m m' ∧ IndexOk m' ∧ ∀ y ∈ l, QOk m' y)) := by
      intro hk
      refine ⟨0, m, [], fun fuel hf => ?_, .inl ⟨rfl, rfl⟩⟩
      simp [Mesh.qualityStep, ht, hk]
    split_ifs at key with hq
    swap
    · exact .inr (stay key)
    obtain ⟨l, e0, k0⟩ := triLocked_of hm (tet4_parts hw).2.2.2
    cases l with
    | true => exact .inr (stay (key.trans ((C25_flip23 m w).1 e0)))
    | false =>
    have h6 := (C25_flip23 m w).2 e0
    have hl : ¬ LockedTri m (a, b, c) := by simpa using k0
    have himp : Improves quality m [(a, b, c, d), (b, a, c, e)] [(b, a, d, e), (a, c, d, e), (c, b, d, e)] := by
      have : ∃ p ∈ [(a, b, c, d), (b, a, c, e)], quality m p = min (quality m (a, b, c, d)) (quality m (b, a, c, e)) := by
        rcases min_choice (quality m (a, b, c, d)) (quality m (b, a, c, e)) with h | h
        · exact ⟨(a, b, c, d), by simp, h.symm⟩
        · exact ⟨(b, a, c, e), by simp, h.symm⟩
      obtain ⟨p, p1, p2⟩ := this
      rw [← p2, lt_min_iff, lt_min_iff] at hq
      refine ⟨p, p1, ?_⟩
      intro q hq'
      simp only [List.mem_cons, List.not_mem_nil, or_false] at hq'
      rcases hq' with rfl | rfl | rfl
      · exact hq.1.1
      · exact hq.1.2
      · exact hq.2
    have hat := FlipAt.flip23 hw ho hfo hl
    by_cases hno : d = e ∨ HasEdge m d e
    · exact .inl (.inl ⟨_, _, ⟨_, _, hat, hno⟩, himp⟩)
    right
    obtain ⟨m', id2, k1, k2, -, -, -, -, k3, k4, k5⟩ := flip23_done hm hw ho hfo hl hno hroom
    obtain ⟨l, k6, k7⟩ := after23_of k2.cons (w0 := ⟨w.tet, 2⟩) (w1 := ⟨o.tet, 2⟩) (w2 := ⟨id2, 2⟩) k3 k4 k5
    refine ⟨0, m', l, fun fuel hf => ?_, .inr ⟨⟨_, _, ⟨_, _, k1 ▸ hat, hno, hroom⟩, himp, fun h => ?_⟩,
      .inl (k2.verts.2.2.1.trans htrack), k7⟩⟩
    · simp [Mesh.qualityStep, ht, key, h6, k1, k6]
    · simp [htrack] at h

/-! ## Termination -/

open Classical in
/-- The number of quadruples that are better. -/
noncomputable def rank (Q : V4 → K) (U : Finset V4) (q : V4) : Nat := (U.filter fun x => Q q < Q x).card

open Classical in
/-- A number that becomes smaller with every improving flip. -/
noncomputable def badness (Q : V4 → K) (U : Finset V4) (m : Mesh P V T) : Nat :=
  ∑ q ∈ U.filter (HasTet m), 64 ^ rank Q U q

theorem rank_lt {Q : V4 → K} {U : Finset V4} {p q : V4} (hq : q ∈ U) (h : Q p < Q q) : rank Q U q < rank Q U p := by
  classical
  unfold rank
  refine Finset.card_lt_card ⟨?_, fun hs => ?_⟩
  · intro x hx
    rw [Finset.mem_filter] at hx ⊢
    exact ⟨hx.1, h.trans hx.2⟩
  · have := hs (Finset.mem_filter.2 ⟨hq, h⟩)
    exact lt_irrefl _ (Finset.mem_filter.1 this).2

/-- The orders of the vertices of a tet. -/
def orders (p : V4) : List V4 :=
  (List.finRange 12).map fun c => (quad p (perms c 0), quad p (perms c 1), quad p (perms c 2), quad p (perms c 3))

theorem mem_orders {p q : V4} : q ∈ orders p ↔ SameTet p q := by
  rw [sameTet_iff, orders, List.mem_map]
  constructor
  · rintro ⟨c, -, h⟩
    exact ⟨c, h.symm⟩
  · rintro ⟨c, h⟩
    exact ⟨c, List.mem_finRange c, h.symm⟩

theorem badness_lt {m m' : Mesh P V T} (Q : V4 → K) (U : Finset V4) {old new : List V4} (h : Replaces m m' old new)
    (hU : ∀ q, HasTet m q → q ∈ U) (hU' : ∀ q, HasTet m' q → q ∈ U) (hlen : new.length ≤ 4)
    (hQ : ∀ q ∈ new, ∀ q', SameTet q q' → Q q' = Q q) {p : V4} (hp : p ∈ old) (hb : ∀ q ∈ new, Q p < Q q) :
    badness Q U m' < badness Q U m := by
  classical
  let A := U.filter (HasTet m)
  let B := (new.flatMap orders).toFinset
  have hpA : p ∈ A := Finset.mem_filter.2 ⟨hU p (h.1 p hp), h.1 p hp⟩
  have hB : B.card ≤ 48 := by
    refine (List.toFinset_card_le _).trans ?_
    rw [List.length_flatMap]
    have : new.map (fun q => (orders q).length) = new.map fun _ => 12 := by
      refine List.map_congr_left fun q _ => ?_
      rw [orders, List.length_map, List.length_finRange]
    rw [this]
    simp only [List.map_const', List.sum_replicate, smul_eq_mul]
    omega
  have hbr : ∀ b ∈ B, rank Q U b + 1 ≤ rank Q U p := by
    intro b hb'
    rw [List.mem_toFinset, List.mem_flatMap] at hb'
    obtain ⟨q, h1, h2⟩ := hb'
    rw [mem_orders] at h2
    have hin : b ∈ U := hU' b ((h.2 b).2 (.inr ⟨q, h1, h2⟩))
    exact rank_lt hin (by rw [hQ q h1 b h2]; exact hb q h1)
  have hsub : U.filter (HasTet m') ⊆ A.erase p ∪ B := by
    intro q hq
    rw [Finset.mem_filter] at hq
    obtain ⟨h1, h2⟩ := hq
    rcases (h.2 q).1 h2 with ⟨h3, h4⟩ | ⟨r, h3, h4⟩
    · refine Finset.mem_union_left _ (Finset.mem_erase.2 ⟨?_, Finset.mem_filter.2 ⟨h1, h3⟩⟩)
      rintro rfl
      exact h4 q hp (sameTet_code 3 rfl)
    · exact Finset.mem_union_right _ (List.mem_toFinset.2 (List.mem_flatMap.2 ⟨r, h3, mem_orders.2 h4⟩))
  have hle : badness Q U m' ≤ ∑ q ∈ A.erase p, 64 ^ rank Q U q + ∑ q ∈ B, 64 ^ rank Q U q := by
    refine (Finset.sum_le_sum_of_subset hsub).trans ?_
    have := Finset.sum_union_inter (s₁ := A.erase p) (s₂ := B) (f := fun q => 64 ^ rank Q U q)
    omega
  have hsum : ∑ q ∈ B, 64 ^ rank Q U q < 64 ^ rank Q U p := by
    by_cases hne : B = ∅
    · rw [hne, Finset.sum_empty]
      exact Nat.pos_of_ne_zero (by simp)
    · obtain ⟨b0, hb0⟩ := Finset.nonempty_iff_ne_empty.2 hne
      have hr := hbr b0 hb0
      obtain ⟨r, hr'⟩ : ∃ r, rank Q U p = r + 1 := ⟨rank Q U p - 1, by omega⟩
      have : ∑ q ∈ B, 64 ^ rank Q U q ≤ B.card * 64 ^ r := by
        rw [← smul_eq_mul]
        refine Finset.sum_le_card_nsmul _ _ _ fun b hb' => ?_
        have := hbr b hb'
        exact Nat.pow_le_pow_right (by norm_num) (by omega)
      rw [hr', pow_succ]
      have h64 : 0 < 64 ^ r := Nat.pos_of_ne_zero (by simp)
      nlinarith
  have htot : ∑ q ∈ A.erase p, 64 ^ rank Q U q + 64 ^ rank Q U p = badness Q U m :=
    Finset.sum_erase_add _ _ hpA
  omega

theorem SameVertices.trans' {m m1 m2 : Mesh P V T} (h : SameVertices m m1) (h' : SameVertices m1 m2) :
    SameVertices m m2 :=
  ⟨fun v => (h'.1 v).trans (h.1 v), h'.2.1.trans h.2.1, h'.2.2.1.trans h.2.2.1, h'.2.2.2.trans h.2.2.2⟩

theorem flipAt_length {m : Mesh P V T} {old new taken r} (h : FlipAt m old new taken r) : new.length ≤ 4 := by
  cases h <;> simp

/-- The loop ends, or gets stuck. -/
theorem quality_loop {quality : Mesh P V T → V4 → K} {m0 : Mesh P V T} (hg : GoodQuality quality m0) (U : Finset V4)
    (n : Nat) : ∀ (m : Mesh P V T), badness (quality m0) U m ≤ n → ConsistentT m → SameVertices m0 m → IndexOk m →
    (∀ a b c d, InMesh m a → InMesh m b → InMesh m c → InMesh m d → (a, b, c, d) ∈ U) →
    ∀ queue set, (∀ x ∈ queue, QOk m x) →
    (∃ m1, QualityRun quality m m1 ∧ QualityStuck quality m1) ∨
    ∃ N m', QualityRun quality m m' ∧ ∀ fuel ≥ N, Mesh.qualityLoop quality fuel m queue set = some m' := by
  induction n using Nat.strong_induction_on with
  | _ n ih =>
  intro m hn hm hv hi hU queue
  induction queue with
  | nil =>
    intro set _
    refine .inr ⟨1, m, .refl m, ?_⟩
    intro fuel hf
    obtain ⟨fuel, rfl⟩ : ∃ f, fuel = f + 1 := ⟨fuel - 1, by omega⟩
    rfl
  | cons x queue ihq =>
    intro set hq
    rcases quality_round (quality := quality) hm hi (hq x (by simp)) with h | ⟨N, m', l, h1, h2⟩
    · exact .inl ⟨m, .refl m, h⟩
    have hloop : ∀ fuel ≥ N, Mesh.qualityLoop quality (fuel + 1) m (x :: queue) set =
        Mesh.qualityLoop quality fuel m' (Mesh.enqueue queue (set.filter (· ≠ x)) l).1
          (Mesh.enqueue queue (set.filter (· ≠ x)) l).2 := by
      intro fuel hf
      simp only [Mesh.qualityLoop, h1 fuel hf, Option.bind_eq_bind, Option.bind_some]
    have finish : ((∃ m1, QualityRun quality m' m1 ∧ QualityStuck quality m1) ∨
        ∃ N' m2, QualityRun quality m' m2 ∧ ∀ fuel ≥ N', Mesh.qualityLoop quality fuel m'
          (Mesh.enqueue queue (set.filter (· ≠ x)) l).1 (Mesh.enqueue queue (set.filter (· ≠ x)) l).2 = some m2) →
        (∀ m2, QualityRun quality m' m2 → QualityRun quality m m2) →
        (∃ m1, QualityRun quality m m1 ∧ QualityStuck quality m1) ∨
        ∃ N m', QualityRun quality m m' ∧ ∀ fuel ≥ N, Mesh.qualityLoop quality fuel m (x :: queue) set = some m' := by
      rintro (⟨m1, k1, k2⟩ | ⟨N', m2, k1, k2⟩) hrun
      · exact .inl ⟨m1, hrun _ k1, k2⟩
      · refine .inr ⟨max N N' + 1, m2, hrun _ k1, ?_⟩
        intro fuel hf
        obtain ⟨fuel, rfl⟩ : ∃ f, fuel = f + 1 := ⟨fuel - 1, by omega⟩
        rw [hloop fuel (by omega)]
        exact k2 fuel (by omega)
    rcases h2 with ⟨rfl, rfl⟩ | ⟨h2, h3, h4⟩
    · exact finish (ihq (set.filter (· ≠ x)) fun y hy => hq y (by simp [hy])) fun _ h => h
    · refine finish ?_ fun _ h => .step h2 h
      obtain ⟨old, new, ⟨taken, ws, f1, f2, f3⟩, ⟨p, p1, p2⟩, -⟩ := h2
      have hd := Spec.Flips.done hm ⟨taken, ws, f1, f2, f3⟩
      have hQ : quality m = quality m0 := funext fun p => hg.verts m hv p
      have hU1 : ∀ {m : Mesh P V T}, (∀ a b c d, InMesh m a → InMesh m b → InMesh m c → InMesh m d → (a, b, c, d) ∈ U) →
          ∀ q, HasTet m q → q ∈ U := by
        rintro m hU ⟨a, b, c, d⟩ hq
        refine hU a b c d ?_ ?_ ?_ ?_ <;> exact inMesh_iff.2 ⟨_, hq, by simp [list4]⟩
      have hU2 : ∀ a b c d, InMesh m' a → InMesh m' b → InMesh m' c → InMesh m' d → (a, b, c, d) ∈ U := by
        intro a b c d ha hb hc hd'
        exact hU a b c d ((hd.inMesh a).1 ha) ((hd.inMesh b).1 hb) ((hd.inMesh c).1 hc) ((hd.inMesh d).1 hd')
      have hlt : badness (quality m0) U m' < badness (quality m0) U m := by
        refine badness_lt (quality m0) U hd.rep (hU1 hU) (hU1 hU2) (flipAt_length f1) ?_ p1 (by rw [← hQ]; exact p2)
        rintro ⟨a, b, c, d⟩ hq q' hs
        obtain ⟨w, hw⟩ := (hd.rep.2 (a, b, c, d)).2 (.inr ⟨_, hq, sameTet_code 3 rfl⟩)
        exact hg.even a b c d q' (hd.cons.toSpec.distinct _ _ _ _ _ hw) hs
      refine ih _ (lt_of_lt_of_le hlt hn) m' le_rfl hd.cons (SameVertices.trans' hv hd.verts) h3 hU2 _ _ ?_
      intro y hy
      have hin : ∀ (l q s : List EdgeOrTri) y, y ∈ (Mesh.enqueue q s l).1 → y ∈ q ∨ y ∈ l := by
        intro l
        induction l with
        | nil => intro q s y h; exact .inl h
        | cons z l ihl =>
          intro q s y h
          rw [Mesh.enqueue, List.foldl_cons] at h
          simp only at h
          split_ifs at h
          · rcases ihl q s y h with h | h
            · exact .inl h
            · exact .inr (by simp [h])
          · rcases ihl (q ++ [z]) (z :: s) y h with h | h
            · rcases List.mem_append.1 h with h | h
              · exact .inl h
              · rw [List.mem_singleton] at h
                exact .inr (by simp [h])
            · exact .inr (by simp [h])
      rcases hin _ _ _ _ hy with h | h
      · have := hq y (by simp [h])
        cases y with
        | edge e => exact ⟨(hd.inMesh e.1).2 this.1, this.2⟩
        | tri s => trivial
      · exact h4 y h

/-- `flip_quality` ends, or gets stuck. -/
theorem flipQuality_run {quality : Mesh P V T → V4 → K} {m : Mesh P V T} (hm : ConsistentT m) (hi : IndexOk m)
    (hg : GoodQuality quality m) :
    (∃ m1, QualityRun quality m m1 ∧ QualityStuck quality m1) ∨
    ∃ N m', QualityRun quality m m' ∧ ∀ fuel ≥ N, Mesh.flipQuality quality fuel m = some m' := by
  classical
  obtain ⟨l, h1, h2⟩ := qualityQueue_of hm
  let S := hm.finite_vertices.toFinset
  rcases quality_loop hg (S ×ˢ S ×ˢ S ×ˢ S) _ m le_rfl hm ⟨fun _ => rfl, rfl, rfl, rfl⟩ hi
    (by
      intro a b c d ha hb hc hd
      simp only [Finset.mem_product, S, Set.Finite.mem_toFinset, Set.mem_setOf_eq]
      exact ⟨ha, hb, hc, hd⟩) l l h2 with h | ⟨N, m', h3, h4⟩
  · exact .inl h
  · refine .inr ⟨N, m', h3, fun fuel hf => ?_⟩
    simp only [Mesh.flipQuality, h1, Option.bind_eq_bind, Option.bind_some]
    exact h4 fuel hf

theorem flipSteps_head {m m1 m2 : Mesh P V T} (h : FlipStep m m1) (h' : FlipSteps m1 m2) : FlipSteps m m2 := by
  induction h' with
  | refl => exact .step (.refl _) h
  | step _ h2 ih => exact .step ih h2

theorem flips_edges {m m' : Mesh P V T} (hm : ConsistentT m) {old new} (h : Flips m m' old new)
    (hl : new.length < old.length) {a b : VId} (he : HasEdge m' a b) : HasEdge m a b := by
  obtain ⟨taken, ws, h1, h2, h3⟩ := h
  generalize hr : some (m', ws) = r at h1
  cases h1 with
  | flip23 => simp at hl
  | flip44 => simp at hl
  | flip32 tet s1 s2 s3 third edge tris =>
    obtain ⟨m1, k1, -, k2, -⟩ := flip32_done hm tet s1 s2 s3 third edge tris h2
    rw [k1] at hr
    obtain ⟨rfl, -⟩ := Prod.mk.inj (Option.some.inj hr)
    exact ((k2 a b).1 he).1

/-- What a run keeps. -/
theorem qualityRun_keeps {quality : Mesh P V T → V4 → K} {m m' : Mesh P V T} (hm : ConsistentT m)
    (hg : GoodQuality quality m) (h : QualityRun quality m m') :
    ConsistentT m' ∧ SameVertices m m' ∧ SameLocks m m' ∧ FlipSteps m m' ∧
    (m.trackTriMap = false → ∀ a b, HasEdge m' a b → HasEdge m a b) ∧
    (∀ k, (∀ p, HasTet m p → k ≤ quality m p) → ∀ p, HasTet m' p → k ≤ quality m' p) := by
  induction h with
  | refl m =>
    exact ⟨hm, ⟨fun _ => rfl, rfl, rfl, rfl⟩, ⟨fun _ => Iff.rfl, fun _ _ => Iff.rfl⟩, .refl m, fun _ _ _ h => h, fun k h => h⟩
  | @step m m1 m2 h1 h2 ih =>
    obtain ⟨old, new, f, ⟨p, p1, p2⟩, hlen⟩ := h1
    have hd := f.done hm
    have hg' : GoodQuality quality m1 := by
      refine ⟨fun m' hv q => ?_, fun a b c d q hn hs => ?_⟩
      · rw [hg.verts m' (SameVertices.trans' hd.verts hv), hg.verts m1 hd.verts]
      · rw [hg.verts m1 hd.verts, hg.verts m1 hd.verts]
        exact hg.even a b c d q hn hs
    obtain ⟨i1, i2, i3, i4, i6, i5⟩ := ih hd.cons hg'
    refine ⟨i1, SameVertices.trans' hd.verts i2, ⟨fun s => (i3.1 s).trans (hd.locks.1 s),
      fun a b => (i3.2 a b).trans (hd.locks.2 a b)⟩, flipSteps_head hd.step i4,
      fun ht a b he => flips_edges hm f (hlen ht) (i6 (hd.verts.2.2.1.trans ht) a b he), ?_⟩
    intro k hk
    refine i5 k ?_
    intro q hq
    rw [hg.verts m1 hd.verts]
    rcases (hd.rep.2 q).1 hq with ⟨h3, -⟩ | ⟨r, h3, h4⟩
    · exact hk q h3
    · obtain ⟨a, b, c, d⟩ := r
      obtain ⟨w, hw⟩ := (hd.rep.2 (a, b, c, d)).2 (.inr ⟨_, h3, sameTet_code 3 rfl⟩)
      rw [hg.even a b c d q (hd.cons.toSpec.distinct _ _ _ _ _ hw) h4]
      exact (hk p (hd.rep.1 p p1)).trans (le_of_lt (p2 _ h3))

end Tet
