import Verif.Model.Integrity
import Verif.Proofs.MeshFacts
import Verif.Proofs.Pattern
import Verif.Proofs.FlipInBase

/-!
# What `assert_integrity` checks
-/

namespace Tet
open Spec
variable {P V T : Type}

theorem walkerOk_iff {m : Mesh P V T} {k : TId} {t : Tet T} (ht : m.tets.get k = some t) (e : Code) :
    m.walkerOk ⟨k, e⟩ = true ↔ ∃ tA tB ue, m.tets.get (t.adj e).tet = some tA ∧
      m.tets.get (tA.adj (t.adj e).edge).tet = some tB ∧ m.edges.get (t.undirEdge e) = some ue ∧
      tA.tri (t.adj e).edge = (t.second e, t.first e, t.third e) ∧ tB.tet (tA.adj (t.adj e).edge).edge = t.tet e ∧
      sorted2 (t.edge e) = sorted2 ue.vertices ∧
      (e.val < 4 → m.trackTriMap = true → (m.triMap (triKey (t.tri e))).isSome) := by
  have hface : face (t.opp (face e)).edge = face (t.adj e).edge := (t.face_adj e).symm
  have htet : (t.opp (face e)).tet = (t.adj e).tet := (t.adj_tet e).symm
  have hs : sorted2 (t.second e, t.first e) = sorted2 (t.first e, t.second e) := (sorted2_pair_iff _ _ _ _).2 (.inr rfl)
  simp only [Mesh.walkerOk, Mesh.tet4, Mesh.toAdjAe, Mesh.fourth, Mesh.toAdj, Mesh.undirEdge, Mesh.tri, ht, Option.map_some,
    Option.bind_eq_bind, Option.bind_some, htet]
  cases hA : m.tets.get (t.adj e).tet with
  | none => simp
  | some tA =>
    simp only [Option.map_some, Option.bind_some, hA]
    cases hB : m.tets.get (tA.adj (t.adj e).edge).tet with
    | none =>
      simp only [Option.map_none, Option.bind_none, Option.getD_none, Bool.false_eq_true, false_iff]
      rintro ⟨_, _, _, h, h', -⟩
      cases h
      rw [hB] at h'
      cases h'
    | some tB =>
      simp only [Option.map_some, Option.bind_some]
      cases hE : m.edges.get (t.undirEdge e) with
      | none => simp
      | some ue =>
        simp only [Option.bind_some, Option.pure_def, Option.getD_some, Bool.and_eq_true, decide_eq_true_eq, Bool.or_eq_true,
          Bool.not_eq_true', Bool.and_eq_false_iff, decide_eq_false_iff_not, Option.some.injEq, exists_eq_left', Tet.tet,
          Prod.mk.injEq, Tet.fourth, hface, and_true, Tet.tri, min_max_sorted2, hs, Tet.edge]
        constructor
        · rintro ⟨⟨⟨h1, h2⟩, h3⟩, h4⟩
          refine ⟨_, _, _, rfl, hB, rfl, h1, h2, h3, fun h5 h6 => ?_⟩
          rcases h4 with (h4 | h4) | h4
          · exact absurd h5 h4
          · rw [h6] at h4; cases h4
          · exact h4
        · rintro ⟨_, _, _, rfl, hB', rfl, h1, h2, h3, h4⟩
          rw [hB] at hB'
          cases hB'
          refine ⟨⟨⟨h1, h2⟩, h3⟩, ?_⟩
          by_cases h5 : e.val < 4
          · cases h6 : m.trackTriMap with
            | false => exact .inl (.inr rfl)
            | true => exact .inr (h4 h5 h6)
          · exact .inl (.inl h5)

theorem dedup_length_iff {α : Type} [DecidableEq α] (l : List α) : l.dedup.length = l.length ↔ l.Nodup := by
  rw [← List.dedup_eq_self]
  exact ⟨fun h => (List.dedup_sublist l).eq_of_length h, fun h => by rw [h]⟩

theorem vertices_dedup (t : Tet T) :
    ([t.vertices 0, t.vertices 1, t.vertices 2, t.vertices 3].dedup.length = 4) ↔ Function.Injective t.vertices := by
  have := dedup_length_iff [t.vertices 0, t.vertices 1, t.vertices 2, t.vertices 3]
  refine this.trans ?_
  have h : (List.ofFn t.vertices) = [t.vertices 0, t.vertices 1, t.vertices 2, t.vertices 3] := by
    simp [List.ofFn_succ]
  rw [← h, List.nodup_ofFn]

theorem lockOk_iff {m : Mesh P V T} {k : TId} {t : Tet T} (ht : m.tets.get k = some t) (e : Code) :
    m.lockOk ⟨k, e⟩ = true ↔ ∃ tA, m.tets.get (t.adj e).tet = some tA ∧
      tA.flags.locked (face (t.adj e).edge) = t.flags.locked (face e) := by
  have hface : face (t.opp (face e)).edge = face (t.adj e).edge := (t.face_adj e).symm
  have htet : (t.opp (face e)).tet = (t.adj e).tet := (t.adj_tet e).symm
  simp only [Mesh.lockOk, Mesh.toAdjAe, ht, Option.map_some, Option.any_some, Mesh.triLocked, htet, hface, decide_eq_true_eq,
    Option.map_eq_some_iff]

theorem tetOk_iff {m : Mesh P V T} (orient : Option (V4 → Bool)) {k : TId} {t : Tet T} (ht : m.tets.get k = some t) :
    m.tetOk orient k = true ↔ Function.Injective t.vertices ∧
      (∀ f, orient = some f → f (t.vertices 0, t.vertices 1, t.vertices 2, t.vertices 3) = true) ∧
      (∀ e : Code, e.val < 4 → m.lockOk ⟨k, e⟩ = true) ∧ ∀ e, m.walkerOk ⟨k, e⟩ = true := by
  simp only [Mesh.tetOk, ht, Option.any_some, Bool.and_eq_true, decide_eq_true_eq, vertices_dedup, Option.all_eq_true,
    List.all_eq_true, List.mem_filter, List.mem_finRange, true_and, forall_true_left, and_assoc]

theorem IdMap.mem_values {α : Type} {m : IdMap α} {x : α} : x ∈ m.values ↔ ∃ k, m.get k = some x := by
  simp only [IdMap.values, List.mem_map, Prod.exists, IdMapSpec.mem_iter]
  exact ⟨fun ⟨a, b, h, e⟩ => ⟨a, e ▸ h⟩, fun ⟨k, h⟩ => ⟨k, x, h, rfl⟩⟩

theorem IdMap.keys_lt {α : Type} (m : IdMap α) : m.keys.Pairwise (· < ·) := by
  rw [IdMapSpec.keys_eq]
  exact List.pairwise_lt_range.filter _

theorem IdMap.values_nodup {α β : Type} {m : IdMap α} (f : α → β) :
    (m.values.map f).Nodup ↔ ∀ e e' x x', m.get e = some x → m.get e' = some x' → f x = f x' → e = e' := by
  have hk := m.keys_lt
  rw [IdMap.keys, List.pairwise_map] at hk
  rw [IdMap.values, List.map_map, List.Nodup, List.pairwise_map]
  constructor
  · intro h e e' x x' he he' hf
    by_contra hne
    have h1 := IdMapSpec.mem_iter.2 he
    have h2 := IdMapSpec.mem_iter.2 he'
    rw [List.pairwise_iff_getElem] at h
    obtain ⟨i, hi, ei⟩ := List.getElem_of_mem h1
    obtain ⟨j, hj, ej⟩ := List.getElem_of_mem h2
    rcases lt_trichotomy i j with hij | rfl | hij
    · exact h i j hi hj hij (by simp only [Function.comp, ei, ej, hf])
    · rw [ei] at ej
      exact hne (congrArg Prod.fst ej)
    · exact h j i hj hi hij (by simp only [Function.comp, ei, ej, hf])
  · intro h
    refine List.Pairwise.imp_of_mem ?_ hk
    rintro ⟨e, x⟩ ⟨e', x'⟩ h1 h2 hlt hf
    exact absurd (h e e' x x' (IdMapSpec.mem_iter.1 h1) (IdMapSpec.mem_iter.1 h2) hf) hlt.ne

theorem IdMap.keys_length {α : Type} (m : IdMap α) : m.keys.length = m.size := by
  rw [IdMapSpec.keys_eq, ← List.countP_eq_length_filter, IdMap.size]
  have h : m.map.slots = (List.range m.map.slots.length).map fun i => m.get i := by
    apply List.ext_getElem (by simp)
    intro i h1 h2
    simp [IdMap.get, StableVec.get, h1]
  conv_rhs => rw [h]
  rw [List.countP_map]
  rfl

theorem edgeSetOk_unique {m : Mesh P V T} (h : m.edgeSetOk = true) :
    (∀ e e' ue ue', m.edges.get e = some ue → m.edges.get e' = some ue' →
      sorted2 ue.vertices = sorted2 ue'.vertices → e = e') ∧
      ∀ e ue, m.edges.get e = some ue → ∃ k t, m.tets.get k = some t ∧ ∃ i, t.edges i = e := by
  simp only [Mesh.edgeSetOk, Bool.and_eq_true, decide_eq_true_eq, List.all_eq_true, List.any_eq_true,
    List.mem_finRange, true_and, IdMap.mem_keys, IdMap.mem_values] at h
  obtain ⟨h1, h2⟩ := h
  constructor
  · rw [Mesh.numEdges, IdMap.len] at h1
    split_ifs at h1
    have h3 := (Option.some.inj h1).symm
    have h4 : (m.edges.values.map fun ue =>
        (min ue.vertices.1 ue.vertices.2, max ue.vertices.1 ue.vertices.2)).length = m.edges.map.numElements := by
      have := m.edges.keys_length
      simpa [IdMap.keys, IdMap.values, IdMap.size, StableVec.numElements] using this
    rw [← h4, dedup_length_iff, IdMap.values_nodup] at h3
    simpa only [min_max_sorted2] using h3
  · intro e ue he
    obtain ⟨t, ⟨k, hk⟩, i, hi⟩ := h2 e (by rw [he]; rfl)
    exact ⟨k, t, hk, i, hi⟩

theorem edgeSetOk_iff {m : Mesh P V T} (hw : m.edges.WF) :
    m.edgeSetOk = true ↔ (∀ e e' ue ue', m.edges.get e = some ue → m.edges.get e' = some ue' →
      sorted2 ue.vertices = sorted2 ue'.vertices → e = e') ∧
      ∀ e ue, m.edges.get e = some ue → ∃ k t, m.tets.get k = some t ∧ ∃ i, t.edges i = e := by
  have h1 : m.numEdges = some (m.edges.values.map fun ue =>
      (min ue.vertices.1 ue.vertices.2, max ue.vertices.1 ue.vertices.2)).length := by
    rw [Mesh.numEdges, hw.len_eq, ← IdMapSpec.length_keys hw]
    simp [IdMap.keys, IdMap.values]
  simp only [Mesh.edgeSetOk, Bool.and_eq_true, decide_eq_true_eq, h1, Option.some.injEq, List.all_eq_true, List.any_eq_true,
    List.mem_finRange, true_and]
  rw [eq_comm, dedup_length_iff, IdMap.values_nodup]
  simp only [min_max_sorted2, IdMap.mem_keys, IdMap.mem_values]
  refine and_congr Iff.rfl ⟨fun h e ue he => ?_, fun h e he => ?_⟩
  · obtain ⟨t, ⟨k, hk⟩, i, hi⟩ := h e (by rw [he]; rfl)
    exact ⟨k, t, hk, i, hi⟩
  · obtain ⟨ue, hue⟩ := Option.isSome_iff_exists.1 he
    obtain ⟨k, t, hk, i, hi⟩ := h e ue hue
    exact ⟨t, ⟨k, hk⟩, i, hi⟩

theorem code4_face : ∀ e : Code, ∃ e' : Code, e'.val < 4 ∧ face e' = face e := by decide

theorem undirIdx_surj : ∀ i : Fin 6, ∃ e : Code, undirIdx e = i := by decide

/-- The check without the orientation. -/
theorem integrity_iff {m : Mesh P V T} {entries : List V3} (hw : m.vertices.WF ∧ m.edges.WF ∧ m.tets.WF)
    (hl : ∀ k t i, m.tets.get k = some t → t.vertices i = GHOST ∨
      ∃ x t', m.vertices.get (t.vertices i) = some x ∧ m.tets.get x.tet.tet = some t' ∧ t'.first x.tet.edge = t.vertices i)
    (hu : TriUniqueT m.tets.get) (hr : OneRingT m.tets.get) (he : ∀ s, s ∈ entries ↔ (m.triMap s).isSome) :
    m.assertIntegrity entries none = true ↔ ConsistentT m ∧ ∀ v x, m.vertices.get v = some x → m.first x.tet = some v := by
  simp only [Mesh.assertIntegrity, Bool.and_eq_true, List.all_eq_true, IdMap.mem_keys, IdMap.mem_values, edgeSetOk_iff hw.2.1]
  constructor
  · rintro ⟨⟨⟨⟨h1, h2⟩, h3, h4⟩, h5⟩, h6⟩
    have hsorted : ∀ e ue, m.edges.get e = some ue → ue.vertices.1 < ue.vertices.2 := by
      intro e ue hue
      have := h2 ue ⟨e, hue⟩
      simp only [Mesh.edgeOk, Bool.and_eq_true, decide_eq_true_eq] at this
      exact this.2
    have hsort : ∀ e ue, m.edges.get e = some ue → sorted2 ue.vertices = ue.vertices := by
      intro e ue hue
      rw [sorted2, if_neg]
      exact Nat.not_lt.2 (hsorted e ue hue).le
    have htet : ∀ k t, m.tets.get k = some t → _ := fun k t ht => (tetOk_iff none ht).1 (h6 k (by rw [ht]; rfl))
    have hv : ∀ v x, m.vertices.get v = some x → m.first x.tet = some v := by
      intro v x hx
      have := h1 v (by rw [hx]; rfl)
      simp only [Mesh.vertexOk, hx, Option.any_some, Bool.and_eq_true, decide_eq_true_eq] at this
      exact this.2
    refine ⟨⟨hw, ?_, ?_, ?_, hl, ?_, ?_, ?_, hu, hr, ?_, ?_, ?_⟩, hv⟩
    · intro k t e ht
      obtain ⟨tA, tB, ue, a1, a2, -, a4, a5, -, -⟩ := (walkerOk_iff ht e).1 ((htet k t ht).2.2.2 e)
      refine ⟨tA, a1, ?_, a4⟩
      have : tB.tri (tA.adj (t.adj e).edge).edge = t.tri e := by
        simp only [Tet.tet, Prod.mk.injEq] at a5
        simp only [Tet.tri, a5]
      obtain ⟨b1, b2⟩ := hu k t e _ tB _ ht a2 this
      rcases hx : tA.adj (t.adj e).edge with ⟨k', e'⟩
      rw [hx] at b1 b2
      simp only at b1 b2
      rw [b1, b2]
    · exact fun k t ht => (htet k t ht).1
    · intro v x hx
      obtain ⟨t, ht, h⟩ := Option.map_eq_some_iff.1 (hv v x hx)
      exact .inr ⟨t, ht, h⟩
    · intro k t e ht
      obtain ⟨tA, tB, ue, -, -, a3, -, -, a6, -⟩ := (walkerOk_iff ht e).1 ((htet k t ht).2.2.2 e)
      exact ⟨ue, a3, by rw [a6, hsort _ _ a3]⟩
    · intro e e' ue ue' a b h
      exact h3 e e' ue ue' a b (by rw [h])
    · intro e ue hue
      obtain ⟨k, t, hk, i, hi⟩ := h4 e ue hue
      obtain ⟨c, hc⟩ := undirIdx_surj i
      exact ⟨k, t, c, hk, by rw [Tet.undirEdge, hc, hi]⟩
    · intro k t t' e ht ht'
      obtain ⟨c, c1, c2⟩ := code4_face e
      obtain ⟨tA, a1, a2⟩ := (lockOk_iff ht c).1 ((htet k t ht).2.2.1 c c1)
      rw [t.adj_tet, c2, ← t.adj_tet, ht'] at a1
      cases a1
      rw [t.face_adj, c2, ← t.face_adj] at a2
      exact a2
    · intro htr s w hsw
      rw [Mesh.triMapOk, htr] at h5
      simp only [Bool.not_true, Bool.false_or, List.all_eq_true] at h5
      have := h5 s ((he s).2 (by rw [hsw]; rfl))
      rw [hsw, Option.any_some, Option.any_eq_true] at this
      obtain ⟨tr, h7, h8⟩ := this
      obtain ⟨t, ht, h9⟩ := Mesh.tri_iff.1 h7
      exact ⟨t, ht, by rw [h9]; simpa using h8⟩
    · intro htr k t e ht
      obtain ⟨c, c1, c2⟩ := code4_face e
      obtain ⟨-, -, -, -, -, -, -, -, -, a7⟩ := (walkerOk_iff ht c).1 ((htet k t ht).2.2.2 c)
      have := a7 c1 htr
      rw [← Tet.triKey_face ((htet k t ht).1) c2] at this
      exact Option.isSome_iff_exists.1 this
  · rintro ⟨hc, hv⟩
    have hue : ∀ e ue, m.edges.get e = some ue → ∃ k t c, m.tets.get k = some t ∧ t.undirEdge c = e ∧
        ue.vertices = sorted2 (t.edge c) := by
      intro e ue hue
      obtain ⟨k, t, c, ht, h⟩ := hc.eused e ue hue
      obtain ⟨ue', a1, a2⟩ := hc.eptr k t c ht
      rw [h, hue] at a1
      cases a1
      exact ⟨k, t, c, ht, h, a2⟩
    have hss : ∀ x : VId × VId, sorted2 (sorted2 x) = sorted2 x := by
      intro x
      obtain ⟨a, b⟩ := x
      rw [← min_max_sorted2, ← min_max_sorted2]
      simp
    refine ⟨⟨⟨⟨?_, ?_⟩, ?_, ?_⟩, ?_⟩, ?_⟩
    · intro v hvs
      obtain ⟨x, hx⟩ := Option.isSome_iff_exists.1 hvs
      have h1 := hv v x hx
      obtain ⟨t, ht, -⟩ := Option.map_eq_some_iff.1 h1
      simp only [Mesh.vertexOk, hx, Option.any_some, Bool.and_eq_true, decide_eq_true_eq]
      exact ⟨(hw.2.2.lt_max ht).ne, h1⟩
    · rintro ue ⟨e, h⟩
      obtain ⟨k, t, c, ht, -, h2⟩ := hue e ue h
      have hne := (Tet.ne_of_inj (hc.distinct k t ht) c).1
      simp only [Mesh.edgeOk, Bool.and_eq_true, decide_eq_true_eq, h2, Tet.edge, ← min_max_sorted2]
      have : t.first c ≠ t.second c := hne
      exact ⟨by simp only [ne_eq]; omega, by omega⟩
    · intro e e' ue ue' h h' hs
      obtain ⟨k, t, c, -, -, h2⟩ := hue e ue h
      obtain ⟨k', t', c', -, -, h2'⟩ := hue e' ue' h'
      refine hc.eunique e e' ue ue' h h' ?_
      rw [h2, h2'] at hs ⊢
      rwa [hss, hss] at hs
    · intro e ue h
      obtain ⟨k, t, c, ht, h1, -⟩ := hue e ue h
      exact ⟨k, t, ht, undirIdx c, h1⟩
    · rw [Mesh.triMapOk]
      cases htr : m.trackTriMap with
      | false => rfl
      | true =>
        simp only [Bool.not_true, Bool.false_or, List.all_eq_true]
        intro s hs
        obtain ⟨w, hsw⟩ := Option.isSome_iff_exists.1 ((he s).1 hs)
        obtain ⟨t, ht, h⟩ := hc.tsound htr s w hsw
        rw [hsw, Option.any_some, Mesh.tri, ht]
        simpa using h
    · intro k hk
      obtain ⟨t, ht⟩ := Option.isSome_iff_exists.1 hk
      rw [tetOk_iff none ht]
      refine ⟨hc.distinct k t ht, by simp, ?_, ?_⟩
      · intro e _
        obtain ⟨t', h1, -, -⟩ := hc.adj k t e ht
        exact (lockOk_iff ht e).2 ⟨t', h1, hc.locks k t t' e ht h1⟩
      · intro e
        obtain ⟨t', h1, h2, h3⟩ := hc.adj k t e ht
        obtain ⟨ue, h4, h5⟩ := hc.eptr k t e ht
        refine (walkerOk_iff ht e).2 ⟨t', t, ue, h1, by rw [h2]; exact ht, h4, h3, by rw [h2], by rw [h5, hss], ?_⟩
        intro _ htr
        obtain ⟨w, h6⟩ := hc.tcomplete htr k t e ht
        rw [h6]; rfl

end Tet
