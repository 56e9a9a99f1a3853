import Verif.Proofs.Progress

/-!
# Removing edges and triangles: three triangles at an edge, and the two functions
-/

namespace Tet
open Spec Filter
variable {P V T : Type} {tests : ProgressTests P V T}

/-- Three tets at an edge whose union is not convex enough for a 3-to-2 flip. -/
structure Conc3 (tests : ProgressTests P V T) (m : Mesh P V T) (x y p q e : VId) : Prop where
  ring : Ring3 m x y p q e
  conc : ¬ (tests.pos m (p, q, x, e) = true ∧ tests.pos m (p, q, e, y) = true)

theorem Conc3.rot {m : Mesh P V T} (hf : Fine tests m) {x y p q e : VId} (h : Conc3 tests m x y p q e) :
    Conc3 tests m x y q e p := by
  refine ⟨h.ring.rot, fun hc => h.conc ?_⟩
  obtain ⟨w0, h0⟩ := h.ring.t0
  obtain ⟨w1, h1⟩ := h.ring.t1
  obtain ⟨w2, h2⟩ := h.ring.t2
  obtain ⟨x1, x2, x3, x4, x5, x6⟩ := hf.cons.ne4 h0
  obtain ⟨y1, y2, y3, y4, y5, y6⟩ := hf.cons.ne4 h1
  obtain ⟨z1, z2, z3, z4, z5, z6⟩ := hf.cons.ne4 h2
  exact ⟨pos_even hf (nodup_of_ne4 ⟨y6, x3.symm, x6.symm, z2.symm, z6, x2⟩) (by same_tet) hc.1,
    pos_even hf (nodup_of_ne4 ⟨y6, x6.symm, x5.symm, z6, z4.symm, x4.symm⟩) (by same_tet) hc.2⟩

/-- At such an edge nothing happens. -/
def ConcOk (tests : ProgressTests P V T) (child : Child P V T) : Prop :=
  ∀ m x y p q e w G B, Fine tests m → Conc3 tests m x y p q e → m.tet4 w = some (x, y, p, q) →
    ∀ᶠ n in atTop, child n w ⟨m, G, B⟩ = some (⟨m, G, B⟩, none)

namespace ProgressState

theorem concave_ok {child : Child P V T} (hc : ConcOk tests child) {m : Mesh P V T} (hf : Fine tests m) {x y p q e : VId}
    (h : Conc3 tests m x y p q e) (goals : List EdgeOrTri) (g : EdgeOrTri) (B : List (VId × VId)) :
    ∀ᶠ n in atTop, concave (child n) (x, y) [p, q, e] ⟨m, goals ++ [g], B⟩ = some (⟨m, goals, B⟩, none) := by
  obtain ⟨w0, h0⟩ := h.ring.t0
  obtain ⟨w1, h1⟩ := h.ring.t1
  obtain ⟨w2, h2⟩ := h.ring.t2
  have a0 := (ringWalker_of hf.cons hf.track (tet4_parts h0).2.2.2).1
  have a1 := (ringWalker_of hf.cons hf.track (tet4_parts h1).2.2.2).1
  have a2 := (ringWalker_of hf.cons hf.track (tet4_parts h2).2.2.2).1
  filter_upwards [hc m x y p q e w0 (goals ++ [g]) (B ++ [sorted2 (x, y)]) hf h h0,
    hc m x y q e p w1 (goals ++ [g]) (B ++ [sorted2 (x, y)]) hf (h.rot hf) h1,
    hc m x y e p q w2 (goals ++ [g]) (B ++ [sorted2 (x, y)]) hf ((h.rot hf).rot hf) h2] with n b0 b1 b2
  simp only [concave, tryTri, a0, a1, a2, b0, b1, b2, Option.bind_eq_bind, Option.bind_some, Option.pure_def, popGoal,
    List.dropLast_concat]

/-- The vertices at the end, seen from the first one. -/
theorem ring3_head {m : Mesh P V T} (hf : Fine tests m) {x y : VId} (he : HasEdge m x y) {L : List VId}
    (hcov : ∀ z, HasTri m (x, y, z) → z ∈ L) (h3 : L.length ≤ 3) :
    L.length = 3 ∧ ∃ p q e, L.head? = some p ∧ Ring3 m x y p q e := by
  obtain ⟨p0, q0, ht⟩ := hf.cons.hasEdge_tet.1 he
  have hle := hf.three_le ht hcov
  obtain ⟨e0, hr, hall⟩ := hf.ring3 ht hcov h3
  refine ⟨by omega, ?_⟩
  match L, hle, hall with
  | v :: L, _, hall =>
    have := hall v (by simp)
    simp only [List.mem_cons, List.not_mem_nil, or_false] at this
    rcases this with rfl | rfl | rfl
    · exact ⟨_, _, _, rfl, hr⟩
    · exact ⟨_, _, _, rfl, hr.rot⟩
    · exact ⟨_, _, _, rfl, hr.rot.rot⟩

/-- The 3-to-2 flip at the end. -/
theorem finish32_ok {child : Child P V T} (hc : ConcOk tests child) {m : Mesh P V T} (hf : Fine tests m) {goals B}
    {x y : VId} (hb : GoodCall m (goals ++ [.edge (sorted2 (x, y))]) B) (he : HasEdge m x y) (hle : ¬ LockedEdge m x y)
    {L : List VId} (hcov : ∀ z, HasTri m (x, y, z) → z ∈ L) (h3 : L.length ≤ 3) :
    ∃ m' r, (∀ᶠ n in atTop, finish32 tests (child n) (x, y) L ⟨m, goals ++ [.edge (sorted2 (x, y))], B⟩ =
        some (⟨m', goals, B⟩, r)) ∧
      Progressed tests m m' (goals ++ [.edge (sorted2 (x, y))]) B r ∧
      (∀ p q e, Conc3 tests m x y p q e → m' = m ∧ r = none) := by
  obtain ⟨hl, p, q, e, hh, hr⟩ := ring3_head hf he hcov h3
  obtain ⟨w, hw⟩ := hr.t0
  obtain ⟨-, o1, o2, s1, s2, s3, k1, k2⟩ := hr.walkers hf.cons hw
  have a0 := (ringWalker_of hf.cons hf.track (tet4_parts hw).2.2.2).1
  obtain ⟨l0, e0, -⟩ := triLocked_of hf.cons (tet4_parts hw).2.2.2
  obtain ⟨l1, e1, -⟩ := triLocked_of hf.cons (tet4_parts k1).2.2.2
  obtain ⟨l2, e2, -⟩ := triLocked_of hf.cons (tet4_parts k2).2.2.2
  unfold Mesh.ringStep at s1 s2
  have hun : ∀ n, finish32 tests (child n) (x, y) L ⟨m, goals ++ [.edge (sorted2 (x, y))], B⟩ =
      if (!tests.pos m (p, q, x, e) || !tests.pos m (p, q, e, y)) = true then
        concave (child n) (x, y) [p, q, e] ⟨m, goals ++ [.edge (sorted2 (x, y))], B⟩
      else finish32 tests (child n) (x, y) L ⟨m, goals ++ [.edge (sorted2 (x, y))], B⟩ := by
    intro n
    split_ifs with h
    · simp only [finish32, hl, ne_eq, not_true_eq_false, if_false, hh, a0, s1, s2, tet4_oppEdge hw, (tet4_parts k1).2.1,
        Option.bind_eq_bind, Option.bind_some, if_pos h]
    · rfl
  by_cases hconc : tests.pos m (p, q, x, e) = true ∧ tests.pos m (p, q, e, y) = true
  · have hnoconc : ∀ p' q' e', ¬ Conc3 tests m x y p' q' e' := by
      intro p' q' e' hcon
      have hp : p ∈ [p', q', e'] := hcon.ring.only p (hasTri_iff.2 ⟨_, hr.t0⟩)
      have key : ∀ {q' e'}, ¬ Conc3 tests m x y p q' e' := by
        intro q' e' hcon
        obtain ⟨w', hw'⟩ := hcon.ring.t0
        obtain ⟨rfl, o1', o2', -, -, -, k1', -⟩ := hr.walkers hf.cons hw'
        obtain ⟨w1', hw1'⟩ := hcon.ring.t1
        obtain ⟨rfl, -⟩ := hr.rot.walkers hf.cons hw1'
        exact hcon.conc hconc
      simp only [List.mem_cons, List.not_mem_nil, or_false] at hp
      rcases hp with rfl | rfl | rfl
      · exact key hcon
      · exact key (hcon.rot hf)
      · exact key ((hcon.rot hf).rot hf)
    have hun : ∀ n, finish32 tests (child n) (x, y) L ⟨m, goals ++ [.edge (sorted2 (x, y))], B⟩ = _ := fun n => by
      simp only [finish32, hl, ne_eq, not_true_eq_false, if_false, hh, a0, s1, s2, tet4_oppEdge hw, (tet4_parts k1).2.1,
        Option.bind_eq_bind, Option.bind_some, hconc.1, hconc.2, Bool.not_true, Bool.or_self, Bool.false_eq_true, e0, e1, e2]
      rfl
    simp only [hun]
    split_ifs with hcd
    · simp only [Bool.and_eq_true, notBad_iff, Bool.not_eq_true'] at hcd
      obtain ⟨⟨⟨⟨⟨⟨n1, n2⟩, n3⟩, t1⟩, rfl⟩, rfl⟩, rfl⟩ := hcd
      obtain ⟨m', ws, g1, g2, g3, g4, g5, g6⟩ := edge_flip32 hf hr hw hle (by
        intro u hu
        simp only [List.mem_cons, List.not_mem_nil, or_false] at hu
        rcases hu with rfl | rfl | rfl
        · exact not_locked_of hf.cons (tet4_parts hw).2.2.2 e0
        · exact not_locked_of hf.cons (tet4_parts k1).2.2.2 e1
        · exact not_locked_of hf.cons (tet4_parts k2).2.2.2 e2) hconc.1 hconc.2 t1 hb ⟨n1, n2, n3⟩
      have hfine := hf.run (.one g2)
      have hrot : ∀ z, sorted3 (z, x, y) = sorted3 (x, y, z) := fun z => sorted3_six3 (by simp [six3])
      obtain ⟨i, i1, i2, i3⟩ := findIdx_removed (m := m) (m' := m') (G := goals ++ [.edge (sorted2 (x, y))])
        (fun g => decide (g ∈ [EdgeOrTri.edge (sorted2 (x, y)), .tri (sorted3 (p, x, y)), .tri (sorted3 (q, x, y)),
          .tri (sorted3 (e, x, y))])) ⟨.edge (sorted2 (x, y)), by simp, by simp⟩ (by
          intro g _ hg
          simp only [decide_eq_true_eq, List.mem_cons, List.not_mem_nil, or_false, hrot] at hg
          rcases hg with rfl | rfl | rfl | rfl
          · rwa [present_edge]
          all_goals
            rw [present_tri hfine.cons]
            exact g5 _) (by
          intro g hgm hg hp
          simp only [decide_eq_false_iff_not, List.mem_cons, List.not_mem_nil, or_false, not_or, hrot] at hg
          refine g6 g (hb.1 g hgm) hg.1 ?_ hp
          intro u hu
          simp only [List.mem_cons, List.not_mem_nil, or_false] at hu
          rcases hu with rfl | rfl | rfl
          exacts [hg.2.1, hg.2.2.1, hg.2.2.2])
      refine ⟨m', some i, .of_forall fun n => ?_, ⟨.one g2, g3, by simp, ?_⟩, fun _ _ _ h => absurd h (hnoconc _ _ _)⟩
      · simp only [g1, List.getLast?_concat, Option.bind_some, i1, popGoal, List.dropLast_concat, Option.pure_def]
      · rintro j hj
        cases hj
        exact ⟨i2, i3⟩
    · refine ⟨m, none, .of_forall fun n => ?_, progressed_refl _ _ _, fun _ _ _ _ => ⟨rfl, rfl⟩⟩
      simp only [popGoal, List.dropLast_concat, Option.pure_def]
  · refine ⟨m, none, ?_, progressed_refl _ _ _, fun _ _ _ _ => ⟨rfl, rfl⟩⟩
    filter_upwards [concave_ok hc hf ⟨hr, hconc⟩ goals (.edge (sorted2 (x, y))) B] with n hn
    rw [hun n, if_pos, hn]
    rw [Bool.or_eq_true, Bool.not_eq_true', Bool.not_eq_true', ← Bool.not_eq_true, ← Bool.not_eq_true]
    tauto

/-- `progress_by_removing_edge` -/
theorem edgeStep_ok {child : Child P V T} (ht : TriOk tests child) (hc : ConcOk tests child) :
    EdgeOk tests fun n => edgeStep tests n (child n) := by
  rintro ⟨m, goals, B⟩ w x y p q hf hb hw
  simp only at hf hb hw
  obtain ⟨e, ue, h1, h2, h3⟩ := edge_locked_of hf.cons hw
  by_cases hl : ue.locked = true
  · refine ⟨m, none, .of_forall fun n => ?_, progressed_refl _ _ _⟩
    simp only [edgeStep, h1, h2, hl, if_true, Option.bind_eq_bind, Option.bind_some, Option.pure_def]
  have hle : ¬ LockedEdge m x y := fun h => hl (h3.2 h)
  have he : HasEdge m x y := hf.cons.hasEdge_tet.2 ⟨p, q, w, hw⟩
  obtain ⟨l, thirds, r1, r2, r3, r4, r5, r6⟩ := ring_of hf.cons hw
  obtain ⟨K, m', r, hr⟩ := reduceLoop_ok ht (goals := goals) (B := B) _ thirds.reverse m hf he hle
    (hb.push (sortedGoal_edge x y)) (by simpa using r4) (fun z hz => by simpa using (r6 z).2 hz) (Nat.lt_succ_self _)
  have hed := (tet4_parts hw).2.2.1
  cases r with
  | inl i =>
    obtain ⟨c1, c2⟩ := hr
    refine ⟨m', i, ?_, c1⟩
    filter_upwards [c2, r1, eventually_ge_atTop K] with n hn hr hk
    simp only [edgeStep, h1, h2, hl, Bool.false_eq_true, if_false, hed, pushGoal, hr, r3, hn n hk, Option.bind_eq_bind,
      Option.bind_some, Option.pure_def]
  | inr L' =>
    obtain ⟨c1, c2, c3, c4, c5, c6, c7⟩ := hr
    have hf1 := hf.run c1
    have he1 : HasEdge m' x y := (present_edge x y).1 (c3 _ (by simp) ((present_edge x y).2 he))
    have hle1 : ¬ LockedEdge m' x y := fun h => hle (((hf.locks c1).2 x y).1 h)
    obtain ⟨m2, r, d1, d2, -⟩ := finish32_ok hc hf1 ((hb.push (sortedGoal_edge x y)).mono c3) he1 hle1 c6 c5
    refine ⟨m2, r, ?_, ⟨c1.trans' d2.run, c2.trans' d2.bad, fun h => c3.trans' (d2.blocked h), fun j hj => ?_⟩⟩
    · filter_upwards [c7, r1, d1, eventually_ge_atTop K] with n hn hr hd hk
      simp only [edgeStep, h1, h2, hl, Bool.false_eq_true, if_false, hed, pushGoal, hr, r3, hn n hk, Option.bind_eq_bind,
        Option.bind_some, hd]
    · obtain ⟨d1, d2⟩ := d2.removed j hj
      exact ⟨d1, (c3.sub fun g hg => List.mem_of_mem_take hg).trans' d2⟩

theorem edgeStep_conc {child : Child P V T} (hc : ConcOk tests child) :
    ConcOk tests fun n => edgeStep tests n (child n) := by
  intro m x y p q e w goals B hf h hw
  obtain ⟨ed, ue, h1, h2, h3⟩ := edge_locked_of hf.cons hw
  by_cases hl : ue.locked = true
  · refine .of_forall fun n => ?_
    simp only [edgeStep, h1, h2, hl, if_true, Option.bind_eq_bind, Option.bind_some, Option.pure_def]
  obtain ⟨l, thirds, r1, r2, r3, r4, r5, r6⟩ := ring_of hf.cons hw
  have h3 : thirds.reverse.length ≤ 3 := by
    rw [List.length_reverse]
    exact (List.subperm_of_subset r4 fun z hz => h.ring.only z ((r6 z).1 hz)).length_le
  obtain ⟨hlen, p', q', e', hh, hr⟩ := ring3_head hf (hf.cons.hasEdge_tet.2 ⟨p, q, w, hw⟩)
    (L := thirds.reverse) (fun z hz => by simpa using (r6 z).2 hz) h3
  have h' : Conc3 tests m x y p' q' e' := by
    have hp : p' ∈ [p, q, e] := h.ring.only p' (hasTri_iff.2 ⟨_, hr.t0⟩)
    have key : ∀ {q e}, Conc3 tests m x y p' q e → Conc3 tests m x y p' q' e' := by
      intro q e hcon
      obtain ⟨w', hw'⟩ := hcon.ring.t0
      obtain ⟨rfl, -⟩ := hr.walkers hf.cons hw'
      obtain ⟨w1', hw1'⟩ := hcon.ring.t1
      obtain ⟨rfl, -⟩ := hr.rot.walkers hf.cons hw1'
      exact hcon
    simp only [List.mem_cons, List.not_mem_nil, or_false] at hp
    rcases hp with rfl | rfl | rfl
    · exact key h
    · exact key (h.rot hf)
    · exact key ((h.rot hf).rot hf)
  obtain ⟨w0, hw0⟩ := hr.t0
  obtain ⟨-, o1, o2, s1, s2, s3, k1, k2⟩ := hr.walkers hf.cons hw0
  have a0 := (ringWalker_of hf.cons hf.track (tet4_parts hw0).2.2.2).1
  unfold Mesh.ringStep at s1 s2
  have hed := (tet4_parts hw).2.2.1
  have hcon : (!tests.pos m (p', q', x, e') || !tests.pos m (p', q', e', y)) = true := by
    have := h'.conc
    rw [Bool.or_eq_true, Bool.not_eq_true', Bool.not_eq_true', ← Bool.not_eq_true, ← Bool.not_eq_true]
    tauto
  filter_upwards [r1, concave_ok hc hf h' goals (.edge (sorted2 (x, y))) B, eventually_ge_atTop 1] with n hn hcc hk
  have hred : reduceLoop tests (child n) n (x, y) n thirds.reverse ⟨m, goals ++ [.edge (sorted2 (x, y))], B⟩ =
      some (⟨m, goals ++ [.edge (sorted2 (x, y))], B⟩, .inr thirds.reverse) := by
    obtain ⟨k, rfl⟩ : ∃ j, n = j + 1 := ⟨n - 1, by omega⟩
    rw [reduceLoop, if_pos h3]
  have hfin : finish32 tests (child n) (x, y) thirds.reverse ⟨m, goals ++ [.edge (sorted2 (x, y))], B⟩ =
      some (⟨m, goals, B⟩, none) := by
    simp only [finish32, hlen, ne_eq, not_true_eq_false, if_false, hh, a0, s1, s2, tet4_oppEdge hw0,
      (tet4_parts k1).2.1, Option.bind_eq_bind, Option.bind_some, if_pos hcon, hcc]
  simp only [edgeStep, h1, h2, hl, Bool.false_eq_true, if_false, hed, pushGoal, hn, r3, Option.bind_eq_bind,
    Option.bind_some, hred, hfin]

theorem tet4_nfe {m : Mesh P V T} {w : Walker} {a b c d : VId} (h : m.tet4 w = some (a, b, c, d)) :
    m.tet4 w.nfe = some (b, c, a, d) := by
  rw [(walker_moves w).1]; exact tet4_perm h _

theorem tet4_pfe {m : Mesh P V T} {w : Walker} {a b c d : VId} (h : m.tet4 w = some (a, b, c, d)) :
    m.tet4 w.pfe = some (c, a, b, d) := by
  rw [(walker_moves w).2.1]; exact tet4_perm h _

/-- `progress_by_removing_tri` -/
theorem triStep_ok {child : Child P V T} (he : EdgeOk tests child) :
    TriOk tests fun n => triStep tests (child n) := by
  rintro ⟨m, goals, B⟩ w x y p q hf hb hw
  simp only at hf hb hw
  have htri := (tet4_parts hw).2.2.2
  obtain ⟨l, e1, -⟩ := triLocked_of hf.cons htri
  cases l with
  | true =>
    refine ⟨m, none, .of_forall fun n => ?_, progressed_refl _ _ _⟩
    simp only [triStep, e1, if_true, Option.bind_eq_bind, Option.bind_some, Option.pure_def]
  | false =>
  have hlt := not_locked_of hf.cons htri e1
  obtain ⟨o, o', f, h1, h2, h3, h4⟩ := adjAe_of hf.cons hw
  have hG := hb.push (sortedGoal_tri (x, y, p))
  have hpres : Present m (.tri (sorted3 (x, y, p))) := (present_tri hf.cons x y p).2 ⟨w, htri⟩
  cases hfind : [(x, y, w), (y, p, w.nfe), (p, x, w.pfe)].find? fun (va, vb, _) => !tests.pos m (va, vb, f, q) with
  | some u =>
    obtain ⟨va, vb, u⟩ := u
    have hu := List.mem_of_find?_eq_some hfind
    obtain ⟨vc, hu, h6⟩ : ∃ vc, m.tet4 u = some (va, vb, vc, q) ∧ (va, vb, vc) ∈ six3 (x, y, p) := by
      simp only [List.mem_cons, List.not_mem_nil, or_false, Prod.mk.injEq] at hu
      rcases hu with ⟨rfl, rfl, rfl⟩ | ⟨rfl, rfl, rfl⟩ | ⟨rfl, rfl, rfl⟩
      · exact ⟨p, hw, by simp [six3]⟩
      · exact ⟨x, tet4_nfe hw, by simp [six3]⟩
      · exact ⟨y, tet4_pfe hw, by simp [six3]⟩
    obtain ⟨m', r, c1, c2⟩ := he ⟨m, goals ++ [.tri (sorted3 (x, y, p))], B⟩ u va vb vc q hf hG hu
    simp only at c1 c2
    have hfine := hf.run c2.run
    refine ⟨m', r, ?_, c2.run, c2.bad, fun h => (c2.blocked h).sub fun g hg => List.mem_append_left _ hg, fun i hi => ?_⟩
    · filter_upwards [c1] with n hn
      simp only [triStep, e1, Bool.false_eq_true, if_false, htri, h3, hw, h4, pushGoal, hfind, hn, Option.bind_eq_bind, Option.bind_some,
        Option.pure_def, popGoal, List.dropLast_concat]
    · obtain ⟨⟨g, k1, k2⟩, k3⟩ := c2.removed i hi
      by_cases hlt : i < (goals ++ [EdgeOrTri.tri (sorted3 (x, y, p))]).length
      · rw [List.getElem?_append_left hlt] at k1
        rw [List.take_append_of_le_length (by omega)] at k3
        exact ⟨⟨g, k1, k2⟩, k3⟩
      · exfalso
        have hlen := (List.getElem?_eq_some_iff.1 k1).1
        simp only [List.length_append, List.length_cons, List.length_nil] at hlen hlt
        have hi' : i = (goals ++ [EdgeOrTri.tri (sorted3 (x, y, p))]).length := by
          simp
          omega
        rw [hi', List.take_left' rfl] at k3
        rw [hi', List.getElem?_concat_length] at k1
        cases k1
        have ht := (present_tri hfine.cons x y p).1 (k3 _ (by simp) hpres)
        have ht2 := hasTri_six3 hfine.cons ht h6
        exact k2 ((present_edge va vb).2 (hasTri_edge hfine.cons ht2))
  | none =>
    have hp := List.find?_eq_none.1 hfind
    have p0 : tests.pos m (x, y, f, q) = true := by simpa using hp (x, y, w) (by simp)
    have p1 : tests.pos m (y, p, f, q) = true := by simpa using hp (y, p, w.nfe) (by simp)
    have p2 : tests.pos m (p, x, f, q) = true := by simpa using hp (p, x, w.pfe) (by simp)
    have hun : ∀ n, triStep tests (child n) w ⟨m, goals, B⟩ = _ := fun n => by
      simp only [triStep, e1, Bool.false_eq_true, if_false, htri, h3, hw, h4, pushGoal, hfind, Option.bind_eq_bind, Option.bind_some]
      rfl
    simp only [Ends, hun]
    split_ifs with hcd
    · have hcd' := hcd
      simp only [Bool.and_eq_true, notBad_iff] at hcd
      obtain ⟨⟨⟨⟨⟨⟨⟨⟨⟨n1, n2⟩, n3⟩, n4⟩, n5⟩, n6⟩, t1⟩, t2⟩, t3⟩, ea⟩ := hcd
      obtain ⟨m', ws, g1, g2, g3, g4, g5⟩ := tri_flip hf hw h1 h2 hlt p0 p1 p2 ea (by
        intro u hu
        simp only [List.mem_cons, List.not_mem_nil, or_false] at hu
        rcases hu with rfl | rfl | rfl <;> assumption) hG (by
        intro u hu
        simp only [List.mem_cons, List.not_mem_nil, or_false] at hu
        rcases hu with rfl | rfl | rfl <;> constructor <;> assumption)
      have hfine := hf.run (.one g2)
      obtain ⟨i, i1, i2, i3⟩ := findIdx_removed (m := m) (m' := m') (G := goals ++ [.tri (sorted3 (x, y, p))])
        (fun g => decide (g = EdgeOrTri.tri (sorted3 (x, y, p)))) ⟨.tri (sorted3 (x, y, p)), by simp, by simp⟩ (by
          intro g _ hg
          rw [decide_eq_true_eq] at hg
          subst hg
          rwa [present_tri hfine.cons]) (by
          intro g hgm hg hp
          exact g5 g (hG.1 g hgm) (by simpa using hg) hp)
      refine ⟨m', some i, .of_forall fun n => ?_, ⟨.one g2, g3, by simp, ?_⟩⟩
      · refine (if_pos hcd').trans ?_
        simp only [g1, List.getLast?_concat, Option.bind_some, i1, popGoal, List.dropLast_concat, Option.pure_def]
      · rintro j hj
        cases hj
        exact ⟨i2, i3⟩
    · refine ⟨m, none, .of_forall fun n => ?_, progressed_refl _ _ _⟩
      refine (if_neg hcd).trans ?_
      simp only [popGoal, List.dropLast_concat, Option.pure_def]

theorem triStep_conc {child : Child P V T} (hc : ConcOk tests child) :
    ConcOk tests fun n => triStep tests (child n) := by
  intro m x y p q e w goals B hf h hw
  have htri := (tet4_parts hw).2.2.2
  obtain ⟨l, e1, -⟩ := triLocked_of hf.cons htri
  cases l with
  | true =>
    refine .of_forall fun n => ?_
    simp only [triStep, e1, if_true, Option.bind_eq_bind, Option.bind_some, Option.pure_def]
  | false =>
  obtain ⟨o, o', f, h1, h2, h3, h4⟩ := adjAe_of hf.cons hw
  have hfe : f = e := by
    obtain ⟨w2, hw2⟩ := h.ring.t2
    have h6 := tet4_twin hw2
    have : w2.twin = o := hf.cons.tri_eq (tet4_parts h6).2.2.2 (tet4_parts h2).2.2.2
    rw [this, h2] at h6
    cases h6
    rfl
  subst hfe
  have hfind : [(x, y, w), (y, p, w.nfe), (p, x, w.pfe)].find? (fun (va, vb, _) => !tests.pos m (va, vb, f, q)) =
      some (x, y, w) := by
    rw [List.find?_cons_of_pos]
    simp [(hf.oriented _ _ _ _ h.ring.t1).1]
  filter_upwards [hc m x y p q f w (goals ++ [.tri (sorted3 (x, y, p))]) B hf h hw] with n hn
  simp only [triStep, e1, Bool.false_eq_true, if_false, htri, h3, hw, h4, pushGoal, hfind, hn, Option.bind_eq_bind, Option.bind_some,
    Option.pure_def, popGoal, List.dropLast_concat]

/-- Both functions at every depth. -/
theorem progress_ok (tests : ProgressTests P V T) (depth : Nat) :
    EdgeOk tests (fun n => (progress tests n depth).1) ∧ TriOk tests (fun n => (progress tests n depth).2) ∧
      ConcOk tests (fun n => (progress tests n depth).1) ∧ ConcOk tests (fun n => (progress tests n depth).2) := by
  induction depth with
  | zero =>
    refine ⟨fun s w x y p q hf hb hw => ⟨s.mesh, none, .of_forall fun n => rfl, progressed_refl _ _ _⟩,
      fun s w x y p q hf hb hw => ⟨s.mesh, none, .of_forall fun n => rfl, progressed_refl _ _ _⟩,
      fun m x y p q e w G B hf h hw => .of_forall fun n => rfl, fun m x y p q e w G B hf h hw => .of_forall fun n => rfl⟩
  | succ d ih =>
    obtain ⟨h1, h2, h3, h4⟩ := ih
    exact ⟨edgeStep_ok h2 h4, triStep_ok h1, edgeStep_conc h4, triStep_conc h3⟩

end ProgressState
end Tet
