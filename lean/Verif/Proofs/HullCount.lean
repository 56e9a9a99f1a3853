import Verif.Proofs.DelaunayFacts

/-!
# A convex mesh has at most twice as many tets as edges
-/

namespace Tet
open Spec Vec5
variable {P V T : Type} {K : Type} [Field K] [LinearOrder K] [IsStrictOrderedRing K]
variable {m : Mesh (Pt K) V T} {S : VId → Prop} {vec : VId → Vec5 K}

/-- Something that is in none of finitely many hyperplanes. -/
theorem generic {ι : Type} (s : Finset ι) (F : ι → Vec5 K → K) (hadd : ∀ i u v, F i (u + v) = F i u + F i v)
    (hsmul : ∀ i (k : K) u, F i (k • u) = k * F i u) (hne : ∀ i ∈ s, ∃ u, F i u ≠ 0) : ∃ z, ∀ i ∈ s, F i z ≠ 0 := by
  classical
  have : Infinite K := by
    haveI : CharZero K := IsStrictOrderedRing.toCharZero
    exact Infinite.of_injective (fun n : Nat => (n : K)) Nat.cast_injective
  induction s using Finset.induction_on with
  | empty => exact ⟨0, by simp⟩
  | insert i s hi ih =>
    obtain ⟨z, hz⟩ := ih fun j hj => hne j (by simp [hj])
    obtain ⟨u, hu⟩ := hne i (by simp)
    obtain ⟨t, ht⟩ := Infinite.exists_notMem_finset ((insert i s).image fun j => -F j z / F j u)
    simp only [Finset.mem_image, not_exists, not_and] at ht
    refine ⟨z + t • u, fun j hj he => ?_⟩
    rw [hadd, hsmul] at he
    by_cases hju : F j u = 0
    · rw [hju, mul_zero, add_zero] at he
      rcases Finset.mem_insert.1 hj with rfl | hj
      · exact hu hju
      · exact hz j hj he
    · refine ht j hj ?_
      rw [div_eq_iff hju]
      linarith

/-- Twice in a row the same sign. -/
theorem two_signs {a b c : K} (ha : a ≠ 0) (hb : b ≠ 0) (hc : c ≠ 0) :
    (0 < b * c) ∨ (0 < c * a) ∨ 0 < a * b := by
  rcases lt_or_gt_of_ne ha with ha | ha <;> rcases lt_or_gt_of_ne hb with hb | hb <;> rcases lt_or_gt_of_ne hc with hc | hc
  · exact .inl (mul_pos_of_neg_of_neg hb hc)
  · exact .inr (.inr (mul_pos_of_neg_of_neg ha hb))
  · exact .inr (.inl (mul_pos_of_neg_of_neg hc ha))
  · exact .inl (mul_pos hb hc)
  · exact .inl (mul_pos_of_neg_of_neg hb hc)
  · exact .inr (.inl (mul_pos hc ha))
  · exact .inr (.inr (mul_pos ha hb))
  · exact .inl (mul_pos hb hc)

/-- Every tet is the first or last one around one of its edges. -/
theorem Hull.extremal (hu : Hull m S vec) (hfin : {v | S v}.Finite) : ∃ h : V4 → K, (∀ p q, SameTet p q → h q = h p) ∧
    ∀ w0, Live m w0 → ∃ w a b c d, w.tet = w0.tet ∧ m.tet4 w = some (a, b, c, d) ∧ ∃ up : Bool,
      ∀ w' q', m.tet4 w' = some q' → a ∈ [q'.1, q'.2.1, q'.2.2.1, q'.2.2.2] → b ∈ [q'.1, q'.2.1, q'.2.2.1, q'.2.2.2] →
        (if up then h q' ≤ h (a, b, c, d) else h (a, b, c, d) ≤ h q') ∧ (h q' = h (a, b, c, d) → w'.tet = w.tet) := by
  classical
  obtain ⟨x, hx, -⟩ := hu.inner hfin
  let Q : Walker → V4 := fun w => (m.tet4 w).getD (0, 0, 0, 0)
  have hQ : ∀ {w q}, m.tet4 w = some q → Q w = q := fun h => by simp only [Q, h, Option.getD_some]
  let N : Walker → Walker := fun w => (m.toAdj w).getD w
  have hN : ∀ {w w'}, m.toAdj w = some w' → N w = w' := fun h => by simp only [N, h, Option.getD_some]
  obtain ⟨z, hz⟩ := generic (K := K) (live_finite m).toFinset
    (fun w z => side vec (Q (N w)) z * side vec (Q w) x - side vec (Q w) z * side vec (Q (N w)) x)
    (fun i u v => by rw [side_add, side_add]; ring) (fun i k u => by rw [side_smul, side_smul]; ring) (fun w hw => by
      obtain ⟨a, b, c, d, h⟩ := live_iff.1 ((live_finite m).mem_toFinset.1 hw)
      obtain ⟨w', y, e1, e2, e3⟩ := toAcross hu.cons h
      refine ⟨vec d, ?_⟩
      rw [hN e1, hQ h, hQ e3, side_zero vec (q := (a, b, c, d)) (v := d) (by simp), zero_mul, sub_zero]
      exact (mul_pos (hu.apex_pos h e3).1 (hx _ _ h)).ne')
  refine ⟨fun q => side vec q z / side vec q x, fun p q hpq => by simp only [side_same vec hpq], ?_⟩
  -- the opposite edge has coefficients of the same sign
  have main : ∀ {w : Walker} {a b c d : VId} {ka kb kc kd : K}, m.tet4 w = some (a, b, c, d) →
      z + (-(side vec (a, b, c, d) z / side vec (a, b, c, d) x)) • x = ka • vec a + kb • vec b + kc • vec c + kd • vec d →
      0 < kc * kd → ∃ up : Bool,
      ∀ w' q', m.tet4 w' = some q' → a ∈ [q'.1, q'.2.1, q'.2.2.1, q'.2.2.2] → b ∈ [q'.1, q'.2.1, q'.2.2.1, q'.2.2.2] →
        (if up then side vec q' z / side vec q' x ≤ side vec (a, b, c, d) z / side vec (a, b, c, d) x
          else side vec (a, b, c, d) z / side vec (a, b, c, d) x ≤ side vec q' z / side vec q' x) ∧
        (side vec q' z / side vec q' x = side vec (a, b, c, d) z / side vec (a, b, c, d) x → w'.tet = w.tet) := by
    intro w a b c d ka kb kc kd h he hcd
    have hS := mem_vertices hu.cons hu.mem h
    have hkc : kc ≠ 0 := fun e => by rw [e, zero_mul] at hcd; exact lt_irrefl _ hcd
    have hkd : kd ≠ 0 := fun e => by rw [e, mul_zero] at hcd; exact lt_irrefl _ hcd
    have key : ∀ w' q', m.tet4 w' = some q' → a ∈ [q'.1, q'.2.1, q'.2.2.1, q'.2.2.2] →
        b ∈ [q'.1, q'.2.1, q'.2.2.1, q'.2.2.2] →
        side vec q' z / side vec q' x - side vec (a, b, c, d) z / side vec (a, b, c, d) x =
          (kc * side vec q' (vec c) + kd * side vec q' (vec d)) / side vec q' x := by
      intro w' q' h' ha hb
      have := congrArg (side vec q') he
      rw [side_add, side_smul, side_add, side_add, side_add, side_smul, side_smul, side_smul, side_smul,
        side_zero vec ha, side_zero vec hb] at this
      have hp := (hx _ _ h').ne'
      rw [eq_div_iff hp, sub_mul, div_mul_cancel₀ _ hp]
      linarith
    have same : ∀ w' q', m.tet4 w' = some q' → a ∈ [q'.1, q'.2.1, q'.2.2.1, q'.2.2.2] →
        b ∈ [q'.1, q'.2.1, q'.2.2.1, q'.2.2.2] → side vec q' (vec c) = 0 → side vec q' (vec d) = 0 → w'.tet = w.tet := by
      intro w' q' h' ha hb hc hd
      obtain ⟨a', b', c', d'⟩ := q'
      refine (hu.unique h h' fun v hv => ?_).symm
      simp only [List.mem_cons, List.not_mem_nil, or_false] at hv
      have mem : ∀ {v}, S v → side vec (a', b', c', d') (vec v) = 0 → v ∈ [a', b', c', d'] := by
        intro v hv h0
        by_contra hn
        exact (hu.pos _ _ v h' hv hn).ne' h0
      rcases hv with rfl | rfl | rfl | rfl
      · exact ha
      · exact hb
      · exact mem hS.2.2.1 hc
      · exact mem hS.2.2.2 hd
    rcases lt_or_gt_of_ne hkc with hc | hc
    · have hd : kd < 0 := by
        by_contra hn
        have := mul_neg_of_neg_of_pos hc (lt_of_le_of_ne (not_lt.1 hn) (Ne.symm hkd))
        linarith
      refine ⟨true, fun w' q' h' ha hb => ?_⟩
      have k1 := key w' q' h' ha hb
      have nc := hu.nonneg h' hS.2.2.1
      have nd := hu.nonneg h' hS.2.2.2
      have pc := mul_nonneg_of_nonpos_of_nonpos hc.le (neg_nonpos.2 nc)
      have pd := mul_nonneg_of_nonpos_of_nonpos hd.le (neg_nonpos.2 nd)
      simp only at nc nd pc pd
      refine ⟨?_, fun e => ?_⟩
      · have := div_nonpos_of_nonpos_of_nonneg (a := kc * side vec q' (vec c) + kd * side vec q' (vec d)) (by linarith)
          (hx _ _ h').le
        rw [if_pos rfl]
        linarith
      · rw [e, sub_self, eq_comm, div_eq_zero_iff, or_iff_left (hx _ _ h').ne'] at k1
        have c0 : kc * side vec q' (vec c) = 0 := by linarith
        have d0 : kd * side vec q' (vec d) = 0 := by linarith
        exact same w' q' h' ha hb ((mul_eq_zero.1 c0).resolve_left hkc) ((mul_eq_zero.1 d0).resolve_left hkd)
    · have hd : 0 < kd := by
        by_contra hn
        have := mul_neg_of_pos_of_neg hc (lt_of_le_of_ne (not_lt.1 hn) hkd)
        linarith
      refine ⟨false, fun w' q' h' ha hb => ?_⟩
      have k1 := key w' q' h' ha hb
      have nc := hu.nonneg h' hS.2.2.1
      have nd := hu.nonneg h' hS.2.2.2
      have pc := mul_nonneg hc.le nc
      have pd := mul_nonneg hd.le nd
      simp only at nc nd pc pd
      refine ⟨?_, fun e => ?_⟩
      · have := div_nonneg (a := kc * side vec q' (vec c) + kd * side vec q' (vec d)) (by linarith) (hx _ _ h').le
        rw [if_neg (by simp)]
        linarith
      · rw [e, sub_self, eq_comm, div_eq_zero_iff, or_iff_left (hx _ _ h').ne'] at k1
        have c0 : kc * side vec q' (vec c) = 0 := by linarith
        have d0 : kd * side vec q' (vec d) = 0 := by linarith
        exact same w' q' h' ha hb ((mul_eq_zero.1 c0).resolve_left hkc) ((mul_eq_zero.1 d0).resolve_left hkd)
  -- coefficients are not zero
  have nonzero : ∀ {w : Walker} {a b c d : VId} {ka kb kc kd : K}, m.tet4 w = some (a, b, c, d) →
      z + (-(side vec (a, b, c, d) z / side vec (a, b, c, d) x)) • x = ka • vec a + kb • vec b + kc • vec c + kd • vec d →
      kd ≠ 0 := by
    intro w a b c d ka kb kc kd h he hkd
    obtain ⟨w', y, e1, e2, e3⟩ := toAcross hu.cons h
    have h1 := hz w ((live_finite m).mem_toFinset.2 (live_iff.2 ⟨_, _, _, _, h⟩))
    simp only [hN e1, hQ h, hQ e3] at h1
    have := congrArg (side vec (b, a, c, y)) he
    rw [side_add, side_smul, hkd, zero_smul, add_zero, side_add, side_add, side_smul, side_smul, side_smul,
      side_zero vec (v := a) (by simp), side_zero vec (v := b) (by simp), side_zero vec (v := c) (by simp)] at this
    have hp := (hx _ _ h).ne'
    have h2 : side vec (b, a, c, y) z = side vec (a, b, c, d) z / side vec (a, b, c, d) x * side vec (b, a, c, y) x := by
      linarith
    refine h1 ?_
    rw [h2]
    field_simp
    ring
  intro w0 hw0
  obtain ⟨a, b, c, d, h⟩ := live_iff.1 hw0
  have hp := (hx _ _ h).ne'
  obtain ⟨ka, kb, kc, kd, he⟩ := hu.inPlane h (y := z + (-(side vec (a, b, c, d) z / side vec (a, b, c, d) x)) • x) (by
    rw [side_add, side_smul]
    field_simp
    ring)
  obtain ⟨t1, t2, -⟩ := tet4_turns h
  have s1 := tet4_same (w := w0) (w' := w0.nve) rfl h t1
  have s2 := tet4_same (w := w0) (w' := w0.pve) rfl h t2
  have he1 : z + (-(side vec (a, c, d, b) z / side vec (a, c, d, b) x)) • x =
      ka • vec a + kc • vec c + kd • vec d + kb • vec b := by
    rw [side_same vec s1, side_same vec s1, he]; abel
  have he2 : z + (-(side vec (a, d, b, c) z / side vec (a, d, b, c) x)) • x =
      ka • vec a + kd • vec d + kb • vec b + kc • vec c := by
    rw [side_same vec s2, side_same vec s2, he]; abel
  rcases two_signs (nonzero t1 he1) (nonzero t2 he2) (nonzero h he) with hs | hs | hs
  · exact ⟨_, _, _, _, _, rfl, h, main h he hs⟩
  · exact ⟨w0.nve, _, _, _, _, rfl, t1, main t1 he1 hs⟩
  · exact ⟨w0.pve, _, _, _, _, rfl, t2, main t2 he2 hs⟩

/-- There are at most twice as many tets as edges. -/
theorem Hull.count (hu : Hull m S vec) (hfin : {v | S v}.Finite) {nT nE : Nat} (hT : m.numTets = some nT)
    (hE : m.numEdges = some nE) : nT ≤ 2 * nE := by
  classical
  obtain ⟨h, hsame, hext⟩ := hu.extremal hfin
  have hm := hu.cons
  have hex : ∀ k ∈ m.tets.keys, ∃ r : EId × Bool, r.1 ∈ m.edges.keys ∧ ∃ w a b c d, w.tet = k ∧ m.tet4 w = some (a, b, c, d) ∧
      m.undirEdge w = some r.1 ∧
      ∀ w' q', m.tet4 w' = some q' → a ∈ [q'.1, q'.2.1, q'.2.2.1, q'.2.2.2] → b ∈ [q'.1, q'.2.1, q'.2.2.1, q'.2.2.2] →
        (if r.2 then h q' ≤ h (a, b, c, d) else h (a, b, c, d) ≤ h q') ∧ (h q' = h (a, b, c, d) → w'.tet = w.tet) := by
    intro k hk
    obtain ⟨w, a, b, c, d, h1, h2, up, h3⟩ := hext ⟨k, 0⟩ (IdMap.mem_keys.1 hk)
    obtain ⟨e, ue, h4, h5, -⟩ := hm.edgePtr w a b (tet4_parts h2).2.2.1
    exact ⟨(e, up), IdMap.mem_keys.2 (by rw [h5]; rfl), w, a, b, c, d, h1, h2, h4, h3⟩
  choose! f hf1 hf2 using hex
  have hinj : ∀ k ∈ m.tets.keys, ∀ k' ∈ m.tets.keys, f k = f k' → k = k' := by
    intro k hk k' hk' he
    obtain ⟨w, a, b, c, d, h1, h2, h3, h4⟩ := hf2 k hk
    obtain ⟨w', a', b', c', d', k1, k2, k3, k4⟩ := hf2 k' hk'
    rw [← he] at k3 k4
    obtain ⟨e, ue, g1, g2, g3⟩ := hm.edgePtr w a b (tet4_parts h2).2.2.1
    obtain ⟨e', ue', l1, l2, l3⟩ := hm.edgePtr w' a' b' (tet4_parts k2).2.2.1
    rw [h3] at g1
    rw [k3] at l1
    cases g1
    cases l1
    rw [g2] at l2
    cases l2
    rw [g3, Prod.mk.injEq] at l3
    have hab : (a = a' ∧ b = b') ∨ (a = b' ∧ b = a') := by
      have : ∀ x y x' y' : Nat, min x y = min x' y' → max x y = max x' y' → (x = x' ∧ y = y') ∨ (x = y' ∧ y = x') := by
        intros; omega
      exact this _ _ _ _ l3.1 l3.2
    have m1 : a ∈ [a', b', c', d'] ∧ b ∈ [a', b', c', d'] := by
      rcases hab with ⟨rfl, rfl⟩ | ⟨rfl, rfl⟩ <;> simp
    have m2 : a' ∈ [a, b, c, d] ∧ b' ∈ [a, b, c, d] := by
      rcases hab with ⟨rfl, rfl⟩ | ⟨rfl, rfl⟩ <;> simp
    obtain ⟨p1, p2⟩ := h4 w' _ k2 m1.1 m1.2
    obtain ⟨q1, q2⟩ := k4 w _ h2 m2.1 m2.2
    rw [← h1, ← k1]
    refine (p2 ?_).symm
    cases hb : (f k).2
    · rw [hb, if_neg (by simp)] at p1 q1
      exact le_antisymm q1 p1
    · rw [hb, if_pos rfl] at p1 q1
      exact le_antisymm p1 q1
  have hl : m.tets.keys.length ≤ (m.edges.keys ×ˢ [false, true]).length := by
    rw [← List.length_map (f := f)]
    refine (List.subperm_of_subset ?_ ?_).length_le
    · refine List.Nodup.map_on hinj ?_
      rw [IdMapSpec.keys_eq]
      exact List.Nodup.filter _ List.nodup_range
    · intro r hr
      obtain ⟨k, hk, rfl⟩ := List.mem_map.1 hr
      rw [List.mem_product]
      exact ⟨hf1 k hk, by cases (f k).2 <;> simp⟩
  rw [List.length_product] at hl
  have h1 := IdMapSpec.length_keys hm.stored.2.2
  have h2 := IdMapSpec.length_keys hm.stored.2.1
  have h3 := hm.stored.2.2.len_eq
  have h4 := hm.stored.2.1.len_eq
  rw [Mesh.numTets, h3] at hT
  rw [Mesh.numEdges, h4] at hE
  have := Option.some.inj hT
  have := Option.some.inj hE
  simp only [List.length_cons, List.length_nil] at hl
  omega

/-- Each edge joins a different pair of vertices or a vertex and the ghost vertex. -/
theorem edges_le {P V T : Type} {m : Mesh P V T} (hm : Consistent m) {nV nE : Nat} (hV : m.numVertices = some nV)
    (hE : m.numEdges = some nE) : 2 * nE ≤ nV * (nV + 1) := by
  classical
  have hT := hm.toT
  let s : Finset VId := (GHOST :: m.vertices.keys).toFinset
  have hs : s.card ≤ nV + 1 := by
    refine (List.toFinset_card_le _).trans ?_
    have h1 := IdMapSpec.length_keys hT.stored.1
    have h2 := hT.stored.1.len_eq
    rw [Mesh.numVertices, h2] at hV
    have := Option.some.inj hV
    simp only [List.length_cons]
    omega
  have hin : ∀ w v, m.first w = some v → v ∈ s := by
    intro w v h
    rcases hm.vertexLive w v h with h | ⟨x, hx, -⟩
    · simp [s, h]
    · simp only [s, List.mem_toFinset, List.mem_cons]
      exact .inr (IdMap.mem_keys.2 (by rw [hx]; rfl))
  have hex : ∀ e ∈ m.edges.keys, ∃ r : VId × VId, r.1 < r.2 ∧ r.1 ∈ s ∧ r.2 ∈ s ∧
      ∃ ue, m.edges.get e = some ue ∧ ue.vertices = r := by
    intro e he
    obtain ⟨ue, hue⟩ := Option.isSome_iff_exists.1 (IdMap.mem_keys.1 he)
    obtain ⟨w, hw⟩ := hm.edgeUsed e ue hue
    have hlive : (m.tets.get w.tet).isSome := by
      unfold Mesh.undirEdge at hw
      obtain ⟨t, ht, -⟩ := Option.map_eq_some_iff.1 hw
      rw [ht]; rfl
    obtain ⟨a, b, c, d, h4⟩ := live_iff.1 hlive
    obtain ⟨e', ue', k1, k2, k3⟩ := hm.edgePtr w a b (tet4_parts h4).2.2.1
    rw [hw] at k1
    cases k1
    rw [hue] at k2
    cases k2
    have hne : a ≠ b := fun h => by
      have := hm.distinct _ _ _ _ _ h4
      simp [h] at this
    have ha := hin _ _ (tet4_parts h4).1
    have hb : b ∈ s := by
      obtain ⟨-, -, h5, -⟩ := tet4_turns h4
      exact hin _ _ (tet4_parts h5).1
    refine ⟨(min a b, max a b), ?_, ?_, ?_, ue, hue, k3⟩
    · exact min_lt_max.2 hne
    · rcases min_choice a b with h | h <;> simp only [h] <;> assumption
    · rcases max_choice a b with h | h <;> simp only [h] <;> assumption
  choose! f f1 f2 f3 f4 using hex
  have hinj : ∀ e ∈ m.edges.keys, ∀ e' ∈ m.edges.keys, f e = f e' → e = e' := by
    intro e he e' he' h
    obtain ⟨ue, k1, k2⟩ := f4 e he
    obtain ⟨ue', l1, l2⟩ := f4 e' he'
    exact hm.edgeUnique _ _ _ _ k1 l1 (by rw [k2, l2, h])
  have hcard : (m.edges.keys.toFinset ×ˢ (Finset.univ : Finset Bool)).card ≤ s.offDiag.card := by
    refine Finset.card_le_card_of_injOn (fun r => if r.2 then f r.1 else (f r.1).swap) ?_ ?_
    · rintro ⟨e, b⟩ h
      simp only [Finset.coe_product, Set.mem_prod, List.coe_toFinset, Set.mem_setOf_eq] at h
      have h1 := f1 e h.1
      have h2 := f2 e h.1
      have h3 := f3 e h.1
      cases b
      · simpa [h2, h3] using h1.ne'
      · simpa [h2, h3] using h1.ne
    · rintro ⟨e, b⟩ h ⟨e', b'⟩ h' heq
      simp only [Finset.coe_product, Set.mem_prod, List.coe_toFinset, Set.mem_setOf_eq] at h h'
      have h1 := f1 e h.1
      have h2 := f1 e' h'.1
      cases b <;> cases b' <;> simp only [if_true, Bool.false_eq_true, if_false] at heq
      · rw [hinj e h.1 e' h'.1 (Prod.swap_injective heq)]
      · rw [← heq] at h2
        simp only [Prod.fst_swap, Prod.snd_swap] at h2
        exact absurd h1 (lt_asymm h2)
      · rw [heq] at h1
        simp only [Prod.fst_swap, Prod.snd_swap] at h1
        exact absurd h1 (lt_asymm h2)
      · rw [hinj e h.1 e' h'.1 heq]
  have hk : m.edges.keys.toFinset.card = nE := by
    rw [List.toFinset_card_of_nodup]
    · have h2 := IdMapSpec.length_keys hT.stored.2.1
      have h4 := hT.stored.2.1.len_eq
      rw [Mesh.numEdges, h4] at hE
      have := Option.some.inj hE
      omega
    · rw [IdMapSpec.keys_eq]
      exact List.Nodup.filter _ List.nodup_range
  rw [Finset.card_product, hk, Finset.offDiag_card] at hcard
  simp only [Finset.card_univ, Fintype.card_bool] at hcard
  have : s.card * s.card - s.card ≤ nV * (nV + 1) := by
    rw [← Nat.mul_sub_one]
    calc s.card * (s.card - 1) ≤ (nV + 1) * nV := Nat.mul_le_mul hs (by omega)
      _ = _ := by ring
  omega

end Tet
