import Verif.Proofs.ProgressBase

/-!
# Removing edges and triangles: the single flips
-/

namespace Tet
open Spec Filter
variable {P V T : Type} {tests : ProgressTests P V T}

/-! ## Rings of an oriented mesh -/

theorem tet4_third {m : Mesh P V T} {w : Walker} {a b c d : VId} (h : m.tet4 w = some (a, b, c, d)) :
    m.third w = some c := by
  obtain ⟨t, ht, h⟩ := Mesh.tet4_iff.1 h
  simp only [Tet.tet, Prod.mk.injEq] at h
  simp [Mesh.third, ht, h.2.2.1]

theorem tet4_oppEdge {m : Mesh P V T} {w : Walker} {a b c d : VId} (h : m.tet4 w = some (a, b, c, d)) :
    m.oppEdge w = some (c, d) := by
  obtain ⟨t, ht, h⟩ := Mesh.tet4_iff.1 h
  simp only [Tet.tet, Prod.mk.injEq] at h
  simp [Mesh.oppEdge, Tet.oppEdge, ht, h.2.2.1, h.2.2.2]

/-- The tet beyond a triangle. -/
theorem adjAe_of {m : Mesh P V T} (hm : ConsistentT m) {w : Walker} {a b c d : VId} (hw : m.tet4 w = some (a, b, c, d)) :
    ∃ o o' e, m.toAdj w = some o ∧ m.tet4 o = some (b, a, c, e) ∧ m.toAdjAe w = some o' ∧ m.fourth o' = some e := by
  obtain ⟨t, h1, -⟩ := Mesh.tet4_iff.1 hw
  obtain ⟨o, ho, htri⟩ := hm.adj_tri (tet4_parts hw).2.2.2
  obtain ⟨e, hw'⟩ := tri_tet4 htri
  have hfo := (tet4_parts hw').2.1
  refine ⟨o, t.opp (face w.edge), e, ho, hw', by rw [Mesh.toAdjAe, h1]; rfl, ?_⟩
  simp only [Mesh.toAdj, h1, Option.map_some, Option.some.injEq] at ho
  have : o.tet = (t.opp (face w.edge)).tet ∧ face o.edge = face (t.opp (face w.edge)).edge := by
    rw [← ho, Tet.adj, turn_eq]
    exact ⟨rfl, face_turnCode _ _⟩
  simp only [Mesh.fourth, Tet.fourth] at hfo ⊢
  rw [← this.1, ← this.2]
  exact hfo

/-- The walker of a triangle in the index. -/
theorem ringWalker_of {m : Mesh P V T} (hm : ConsistentT m) (ht : m.trackTriMap = true) {w : Walker} {x y p : VId}
    (hw : m.tri w = some (x, y, p)) : m.ringWalker (x, y) p = some w ∧ ∀ fuel, m.walkerFromTri fuel (x, y, p) = some (some w) := by
  obtain ⟨r, h1, h2⟩ := C29_tracked hm.toSpec ht (x, y, p)
  rcases h2 with ⟨u, rfl, h3⟩ | ⟨-, h3⟩
  · have := hm.tri_eq hw h3
    subst this
    refine ⟨?_, h1⟩
    have h4 := h1 0
    simp only [Mesh.walkerFromTri, ht, if_true] at h4
    unfold Mesh.ringWalker
    cases hk : m.triMap (triKey (x, y, p)) with
    | none => simp [hk] at h4
    | some k =>
      simp only [hk, Option.map_eq_some_iff] at h4
      obtain ⟨u, h5, h6⟩ := h4
      cases h6
      simp [h5]
  · exact absurd hw (h3 w)

/-- Three tets around an edge. -/
structure Ring3 (m : Mesh P V T) (x y p q e : VId) : Prop where
  t0 : HasTet m (x, y, p, q)
  t1 : HasTet m (x, y, q, e)
  t2 : HasTet m (x, y, e, p)
  only : ∀ z, HasTri m (x, y, z) → z ∈ [p, q, e]

theorem Ring3.rot {m : Mesh P V T} {x y p q e : VId} (h : Ring3 m x y p q e) : Ring3 m x y q e p :=
  ⟨h.t1, h.t2, h.t0, fun z hz => by
    have := h.only z hz
    simp only [List.mem_cons, List.not_mem_nil, or_false] at this ⊢
    tauto⟩

theorem Ring3.ne {m : Mesh P V T} (hm : ConsistentT m) {x y p q e : VId} (h : Ring3 m x y p q e) : p ≠ q ∧ q ≠ e ∧ e ≠ p := by
  obtain ⟨w, h0⟩ := h.t0
  obtain ⟨w1, h1⟩ := h.t1
  obtain ⟨w2, h2⟩ := h.t2
  exact ⟨(hm.ne4 h0).2.2.2.2.2, (hm.ne4 h1).2.2.2.2.2, (hm.ne4 h2).2.2.2.2.2⟩

/-- The walkers of a ring of three. -/
theorem Ring3.walkers {m : Mesh P V T} (hm : ConsistentT m) {x y p q e : VId} (h : Ring3 m x y p q e) {w : Walker} {r : VId}
    (hw : m.tet4 w = some (x, y, p, r)) :
    r = q ∧ ∃ o1 o2, m.ringStep w = some o1 ∧ m.ringStep o1 = some o2 ∧ m.ringStep o2 = some w ∧
      m.tet4 o1 = some (x, y, q, e) ∧ m.tet4 o2 = some (x, y, e, p) := by
  obtain ⟨w0, h0⟩ := h.t0
  obtain ⟨w1, h1⟩ := h.t1
  obtain ⟨w2, h2⟩ := h.t2
  have : w = w0 := hm.tri_eq (tet4_parts hw).2.2.2 (tet4_parts h0).2.2.2
  subst this
  rw [h0] at hw
  cases hw
  refine ⟨rfl, w1, w2, ?_, ?_, ?_, h1, h2⟩
  · obtain ⟨o, r, k1, k2⟩ := ringStep_of hm h0
    rw [k1, hm.tri_eq (tet4_parts k2).2.2.2 (tet4_parts h1).2.2.2]
  · obtain ⟨o, r, k1, k2⟩ := ringStep_of hm h1
    rw [k1, hm.tri_eq (tet4_parts k2).2.2.2 (tet4_parts h2).2.2.2]
  · obtain ⟨o, r, k1, k2⟩ := ringStep_of hm h2
    rw [k1, hm.tri_eq (tet4_parts k2).2.2.2 (tet4_parts h0).2.2.2]

/-- In an oriented mesh there are at least three triangles at an edge. -/
theorem Fine.three {m : Mesh P V T} (h : Fine tests m) {x y p q : VId} (ht : HasTet m (x, y, p, q)) :
    ∃ e, HasTet m (x, y, q, e) ∧ p ≠ q ∧ e ≠ p ∧ e ≠ q := by
  obtain ⟨w, hw⟩ := ht
  obtain ⟨o, e, -, h2⟩ := ringStep_of h.cons hw
  refine ⟨e, ⟨o, h2⟩, (h.cons.ne4 hw).2.2.2.2.2, ?_, (h.cons.ne4 h2).2.2.2.2.2.symm⟩
  rintro rfl
  exact (h.oriented _ _ _ _ ⟨w, hw⟩).2 ⟨o, h2⟩

theorem Fine.three_le {m : Mesh P V T} (h : Fine tests m) {x y p q : VId} (ht : HasTet m (x, y, p, q)) {l : List VId}
    (hl : ∀ z, HasTri m (x, y, z) → z ∈ l) : 3 ≤ l.length := by
  obtain ⟨e, h1, h2, h3, h4⟩ := h.three ht
  obtain ⟨f, h5, -⟩ := h.three h1
  have hs : [p, q, e] ⊆ l := by
    intro z hz
    simp only [List.mem_cons, List.not_mem_nil, or_false] at hz
    rcases hz with rfl | rfl | rfl
    · exact hl _ (hasTri_iff.2 ⟨_, ht⟩)
    · exact hl _ (hasTri_iff.2 ⟨_, h1⟩)
    · exact hl _ (hasTri_iff.2 ⟨_, h5⟩)
  have hn : [p, q, e].Nodup := by
    simp [h2, h3.symm, h4.symm]
  exact (List.subperm_of_subset hn hs).length_le

/-- If there are not more, then there are three tets. -/
theorem Fine.ring3 {m : Mesh P V T} (h : Fine tests m) {x y p q : VId} (ht : HasTet m (x, y, p, q)) {l : List VId}
    (hl : ∀ z, HasTri m (x, y, z) → z ∈ l) (hle : l.length ≤ 3) : ∃ e, Ring3 m x y p q e ∧ ∀ z ∈ l, z ∈ [p, q, e] := by
  obtain ⟨e, h1, h2, h3, h4⟩ := h.three ht
  obtain ⟨f, h5, -, h6, h7⟩ := h.three h1
  have hs : [p, q, e] ⊆ l := by
    intro z hz
    simp only [List.mem_cons, List.not_mem_nil, or_false] at hz
    rcases hz with rfl | rfl | rfl
    · exact hl _ (hasTri_iff.2 ⟨_, ht⟩)
    · exact hl _ (hasTri_iff.2 ⟨_, h1⟩)
    · exact hl _ (hasTri_iff.2 ⟨_, h5⟩)
  have hn : [p, q, e].Nodup := by
    simp [h2, h3.symm, h4.symm]
  have hp := (List.subperm_of_subset hn hs).perm_of_length_le hle
  have hall : ∀ z ∈ l, z ∈ [p, q, e] := fun z hz => hp.mem_iff.2 hz
  obtain ⟨g, h8, -⟩ := h.three h5
  have : f = p := by
    have := hall f (hl _ (hasTri_iff.2 ⟨_, h8⟩))
    simp only [List.mem_cons, List.not_mem_nil, or_false] at this
    tauto
  subst this
  exact ⟨e, ⟨ht, h1, h5, fun z hz => hall z (hl z hz)⟩, hall⟩

theorem Fine.room {m : Mesh P V T} (h : Fine tests m) : Room m := by
  by_contra hn
  exact h.never m (.refl m) (.inr hn)

theorem Fine.even {m : Mesh P V T} (h : Fine tests m) {a b c d : VId} (hn : [a, b, c, d].Nodup) (i : Code) :
    tests.pos m (quad (a, b, c, d) (perms i 0), quad (a, b, c, d) (perms i 1), quad (a, b, c, d) (perms i 2),
      quad (a, b, c, d) (perms i 3)) = tests.pos m (a, b, c, d) :=
  h.good.even a b c d _ hn (sameTet_code i rfl)

/-! ## The index of the first goal that is reached -/

theorem findIdx_removed {m m' : Mesh P V T} {G : List EdgeOrTri} (f : EdgeOrTri → Bool) (h0 : ∃ g ∈ G, f g = true)
    (h1 : ∀ g ∈ G, f g = true → ¬ Present m' g) (h2 : ∀ g ∈ G, f g = false → Present m g → Present m' g) :
    ∃ i, G.findIdx? f = some i ∧ (∃ g, G[i]? = some g ∧ ¬ Present m' g) ∧ KeepsGoals m m' (G.take i) := by
  obtain ⟨g, hg, hf⟩ := h0
  have hlt : G.findIdx f < G.length := List.findIdx_lt_length.2 ⟨g, hg, hf⟩
  refine ⟨G.findIdx f, List.findIdx?_eq_some_iff_findIdx_eq.2 ⟨hlt, rfl⟩, ⟨G[G.findIdx f], List.getElem?_eq_getElem hlt, ?_⟩, ?_⟩
  · exact h1 _ (List.getElem_mem _) List.findIdx_getElem
  · intro g hg hp
    obtain ⟨j, hj, rfl⟩ := List.mem_take_iff_getElem.1 hg
    have : j < G.findIdx f := by omega
    have hb := List.not_of_lt_findIdx this
    exact h2 _ (List.getElem_mem _) (by simpa using hb) hp

/-- The last goal is an edge, or the three triangles. -/
theorem goal_kept {m m' : Mesh P V T} {x y : VId} {us : List VId}
    (hed : ∀ u u', HasEdge m u u' → (u, u') ≠ (x, y) → (u, u') ≠ (y, x) → HasEdge m' u u')
    (hlost : ∀ s, HasTri m s → HasTri m' s ∨ ∃ u ∈ us, s ∈ six3 (x, y, u)) {g : EdgeOrTri} (hs : SortedGoal g)
    (hg : g ≠ .edge (sorted2 (x, y))) (hg' : ∀ u ∈ us, g ≠ .tri (sorted3 (x, y, u))) (hp : Present m g) : Present m' g := by
  cases g with
  | edge e =>
    obtain ⟨a, b⟩ := e
    have hab : a ≤ b := hs
    refine hed a b hp ?_ ?_
    · intro e
      cases e
      apply hg
      rcases sorted2_cases x y with ⟨h, h'⟩ | ⟨h, h'⟩
      · rw [h]
      · rw [h, le_antisymm hab h']
    · intro e
      cases e
      apply hg
      rcases sorted2_cases x y with ⟨h, h'⟩ | ⟨h, h'⟩
      · rw [h, le_antisymm hab h']
      · rw [h]
  | tri t =>
    rcases hlost t hp with h | ⟨u, hu, h⟩
    · exact h
    · refine absurd ?_ (hg' u hu)
      rw [← sorted3_six3 h, sorted3_of_sorted hs]

/-- A bad edge does not get a triangle if the new triangles have no bad edges. -/
theorem spares_of {m m' : Mesh P V T} {goals : List EdgeOrTri} {bad : List (VId × VId)} (hb : GoodCall m goals bad)
    {us : List V3} (hadd : ∀ s, HasTri m' s → HasTri m s ∨ ∃ t ∈ us, s ∈ six3 t)
    (hnb : ∀ t ∈ us, ∀ a b c, (a, b, c) ∈ six3 t → HasEdge m a b → sorted2 (a, b) ∉ bad) : SparesBad m m' bad := by
  intro a b c hab hp
  rcases hadd _ hp with h | ⟨t, ht, h⟩
  · exact h
  · exfalso
    have he : HasEdge m a b := by
      rcases hab with h | h
      · exact (hb.2 _ h).2
      · exact hasEdge_comm.1 (hb.2 _ h).2
    have hs : sorted2 (a, b) ∈ bad := by
      rcases hab with h | h
      · have : a ≤ b := hb.1 _ (hb.2 _ h).1
        rcases sorted2_cases a b with ⟨e, e'⟩ | ⟨e, e'⟩
        · rwa [e]
        · have := le_antisymm e' this
          subst this
          rw [e]
          exact h
      · have : b ≤ a := hb.1 _ (hb.2 _ h).1
        rcases sorted2_cases a b with ⟨e, e'⟩ | ⟨e, e'⟩
        · have := le_antisymm e' this
          subst this
          rw [e]
          exact h
        · rwa [e]
    exact hnb t ht a b c h he hs

/-! ## The flips -/

theorem pos_even {m : Mesh P V T} (h : Fine tests m) {a b c d : VId} {q : V4} (hn : [a, b, c, d].Nodup)
    (hs : SameTet (a, b, c, d) q) (hp : tests.pos m (a, b, c, d) = true) : tests.pos m q = true :=
  (h.good.even a b c d q hn hs).trans hp

/-- Two of the four numbers given are the same tet in a different order. -/
macro "same_tet" : tactic => `(tactic| first
  | exact sameTet_code 0 rfl | exact sameTet_code 1 rfl | exact sameTet_code 2 rfl | exact sameTet_code 3 rfl
  | exact sameTet_code 4 rfl | exact sameTet_code 5 rfl | exact sameTet_code 6 rfl | exact sameTet_code 7 rfl
  | exact sameTet_code 8 rfl | exact sameTet_code 9 rfl | exact sameTet_code 10 rfl | exact sameTet_code 11 rfl)

theorem perm_of_six3 {a b c p q r : VId} (h : (a, b, c) ∈ six3 (p, q, r)) : [p, q, r].Perm [a, b, c] := by
  simp only [six3, List.mem_cons, List.not_mem_nil, or_false, Prod.mk.injEq] at h
  rcases h with ⟨rfl, rfl, rfl⟩ | ⟨rfl, rfl, rfl⟩ | ⟨rfl, rfl, rfl⟩ | ⟨rfl, rfl, rfl⟩ | ⟨rfl, rfl, rfl⟩ | ⟨rfl, rfl, rfl⟩ <;>
    refine List.perm_iff_count.2 fun z => ?_ <;> simp only [List.count_cons, List.count_nil] <;> omega

theorem tri_flip {m : Mesh P V T} (h : Fine tests m) {w o : Walker} {a b c d e : VId}
    (hw : m.tet4 w = some (a, b, c, d)) (ho : m.toAdj w = some o) (ho' : m.tet4 o = some (b, a, c, e))
    (hl : ¬ LockedTri m (a, b, c)) (p0 : tests.pos m (a, b, e, d) = true) (p1 : tests.pos m (b, c, e, d) = true)
    (p2 : tests.pos m (c, a, e, d) = true) (ha : tests.edgeAddable m (d, e) = true)
    (ht : ∀ u ∈ [a, b, c], tests.triAddable m (u, d, e) = true) {goals bad} (hb : GoodCall m goals bad)
    (hn : ∀ u ∈ [a, b, c], sorted2 (u, d) ∉ bad ∧ sorted2 (u, e) ∉ bad) :
    ∃ m' ws, m.flip23Unchecked w = some (m', ws) ∧ ProgressFlip tests m m' ∧ SparesBad m m' bad ∧
      ¬ HasTri m' (a, b, c) ∧ ∀ g, SortedGoal g → g ≠ .tri (sorted3 (a, b, c)) → Present m g → Present m' g := by
  have hde : d ≠ e := by
    rintro rfl
    have := h.good.mirror _ _ _ _ p0
    rw [p0] at this
    cases this
  obtain ⟨x1, x2, x3, x4, x5, x6⟩ := h.cons.ne4 hw
  obtain ⟨y1, y2, y3, y4, y5, y6⟩ := h.cons.ne4 ho'
  have hnew : ∀ q ∈ [(b, a, d, e), (a, c, d, e), (c, b, d, e)], tests.pos m q = true := by
    intro q hq
    simp only [List.mem_cons, List.not_mem_nil, or_false] at hq
    rcases hq with rfl | rfl | rfl
    · exact pos_even h (nodup_of_ne4 ⟨x1, y5, x3, y3, x5, hde.symm⟩) (by same_tet) p0
    · exact pos_even h (nodup_of_ne4 ⟨x2.symm, y6, x6, y5, x3, hde.symm⟩) (by same_tet) p2
    · exact pos_even h (nodup_of_ne4 ⟨x4, y3, x5, y6, x6, hde.symm⟩) (by same_tet) p1
  have hfo := (tet4_parts ho').2.1
  have hno : ¬ (d = e ∨ HasEdge m d e) := fun hc =>
    h.never m (.refl m) (.inl ⟨_, _, ⟨_, _, .flip23 hw ho hfo hl, hc⟩, hnew⟩)
  obtain ⟨m', id2, h1, -, h3, h4, h5, h6, -⟩ := flip23_done h.cons hw ho hfo hl hno h.room
  have hfa := FlipAt.flip23 hw ho hfo hl
  rw [h1] at hfa
  refine ⟨m', _, h1, ⟨_, _, ⟨_, _, hfa, hno, h.room⟩, hnew, ?_, ?_⟩, ?_, h4, ?_⟩
  · intro u u' hu
    rcases (h3 u u').1 hu with k | k | k
    · exact .inl k
    · cases k
      exact .inr (.inl ha)
    · cases k
      exact .inr (.inr ha)
  · intro u1 u2 u3 hu
    rcases h6 _ hu with k | ⟨u, hu, k⟩
    · exact .inl k
    · refine .inr ⟨u, d, e, ?_, ht u hu⟩
      exact perm_of_six3 k
  · refine spares_of hb (us := [a, b, c].map fun u => (u, d, e)) ?_ ?_
    · intro s hs
      rcases h6 s hs with k | ⟨u, hu, k⟩
      · exact .inl k
      · exact .inr ⟨_, List.mem_map.2 ⟨u, hu, rfl⟩, k⟩
    · rintro t ht u1 u2 u3 hu he
      obtain ⟨u, hu', rfl⟩ := List.mem_map.1 ht
      obtain ⟨n1, n2⟩ := hn u hu'
      rw [not_or] at hno
      simp only [six3, List.mem_cons, List.not_mem_nil, or_false, Prod.mk.injEq] at hu
      rcases hu with ⟨rfl, rfl, rfl⟩ | ⟨rfl, rfl, rfl⟩ | ⟨rfl, rfl, rfl⟩ | ⟨rfl, rfl, rfl⟩ | ⟨rfl, rfl, rfl⟩ | ⟨rfl, rfl, rfl⟩ <;>
        first
        | assumption
        | exact absurd he hno.2
        | exact absurd (hasEdge_comm.1 he) hno.2
        | (rw [sorted2_swap]; assumption)
  · intro g hs hg hp
    cases g with
    | edge e => exact (h3 _ _).2 (.inl hp)
    | tri t =>
      rcases h5 t hp with k | k
      · exact k
      · exact absurd (by rw [← sorted3_six3 k, sorted3_of_sorted hs]) hg

theorem edge_flip32 {m : Mesh P V T} (h : Fine tests m) {x y p q e : VId} (hr : Ring3 m x y p q e) {w : Walker}
    (hw : m.tet4 w = some (x, y, p, q)) (hle : ¬ LockedEdge m x y) (hlt : ∀ u ∈ [p, q, e], ¬ LockedTri m (x, y, u))
    (p0 : tests.pos m (p, q, x, e) = true) (p1 : tests.pos m (p, q, e, y) = true)
    (ht : tests.triAddable m (p, q, e) = true) {goals bad} (hb : GoodCall m goals bad)
    (hn : sorted2 (p, q) ∉ bad ∧ sorted2 (q, e) ∉ bad ∧ sorted2 (e, p) ∉ bad) :
    ∃ m' ws, m.flip32Unchecked w = some (m', ws) ∧ ProgressFlip tests m m' ∧ SparesBad m m' bad ∧
      ¬ HasEdge m' x y ∧ (∀ u, ¬ HasTri m' (x, y, u)) ∧
      ∀ g, SortedGoal g → g ≠ .edge (sorted2 (x, y)) → (∀ u ∈ [p, q, e], g ≠ .tri (sorted3 (x, y, u))) →
        Present m g → Present m' g := by
  obtain ⟨-, o1, o2, s1, s2, s3, k1, k2⟩ := hr.walkers h.cons hw
  obtain ⟨x1, x2, x3, x4, x5, x6⟩ := h.cons.ne4 hw
  obtain ⟨y1, y2, y3, y4, y5, y6⟩ := h.cons.ne4 k1
  obtain ⟨z1, z2, z3, z4, z5, z6⟩ := h.cons.ne4 k2
  have hnew : ∀ t ∈ [(q, p, e, x), (p, q, e, y)], tests.pos m t = true := by
    intro t ht
    simp only [List.mem_cons, List.not_mem_nil, or_false] at ht
    rcases ht with rfl | rfl
    · exact pos_even h (nodup_of_ne4 ⟨x6, x2.symm, z6.symm, x3.symm, y6, y3⟩) (by same_tet) p0
    · exact p1
  have hfo := (tet4_parts k1).2.1
  have hno : ¬ HasTri m (q, p, e) := fun hc =>
    h.never m (.refl m) (.inl ⟨_, _, ⟨_, _, .flip32 hw s1 s2 s3 hfo hle hlt, hc⟩, hnew⟩)
  obtain ⟨m', h1, hd, h3, h5, h6, -⟩ := flip32_done h.cons hw s1 s2 s3 hfo hle hlt hno
  have hne : ¬ HasEdge m' x y := fun hc => ((h3 x y).1 hc).2.1 rfl
  have hfa := FlipAt.flip32 hw s1 s2 s3 hfo hle hlt
  rw [h1] at hfa
  refine ⟨m', _, h1, ⟨_, _, ⟨_, _, hfa, hno, h.room⟩, hnew, ?_, ?_⟩, ?_, hne,
    fun u hu => hne (hasTri_edge hd.cons hu), ?_⟩
  · intro u u' hu
    exact .inl ((h3 u u').1 hu).1
  · intro u1 u2 u3 hu
    rcases h6 _ hu with k | k
    · exact .inl k
    · refine .inr ⟨p, q, e, ?_, ht⟩
      exact perm_of_six3 k
  · refine spares_of hb (us := [(p, q, e)]) ?_ ?_
    · intro s hs
      rcases h6 s hs with k | k
      · exact .inl k
      · exact .inr ⟨_, by simp, k⟩
    · rintro t ht u1 u2 u3 hu he
      simp only [List.mem_singleton] at ht
      subst ht
      obtain ⟨n1, n2, n3⟩ := hn
      simp only [six3, List.mem_cons, List.not_mem_nil, or_false, Prod.mk.injEq] at hu
      rcases hu with ⟨rfl, rfl, rfl⟩ | ⟨rfl, rfl, rfl⟩ | ⟨rfl, rfl, rfl⟩ | ⟨rfl, rfl, rfl⟩ | ⟨rfl, rfl, rfl⟩ | ⟨rfl, rfl, rfl⟩ <;>
        first
        | assumption
        | (rw [sorted2_swap]; assumption)
  · intro g hs hg hg' hp
    exact goal_kept (fun u u' k1 k2 k3 => (h3 u u').2 ⟨k1, k2, k3⟩) h5 hs hg hg' hp

theorem edge_flip44 {m : Mesh P V T} (h : Fine tests m) {w a1 a2 a3 : Walker} {x y p q r s : VId}
    (hw : m.tet4 w = some (x, y, p, q)) (s1 : m.ringStep w = some a1) (s2 : m.ringStep a1 = some a2)
    (s3 : m.ringStep a2 = some a3) (s4 : m.ringStep a3 = some w) (hne : a2 ≠ w)
    (k1 : m.tet4 a1 = some (x, y, q, r)) (k2 : m.tet4 a2 = some (x, y, r, s)) (hle : ¬ LockedEdge m x y)
    (hlt : ∀ u ∈ [p, q, r, s], ¬ LockedTri m (x, y, u))
    (p0 : tests.pos m (r, y, p, q) = true) (p1 : tests.pos m (r, s, p, y) = true)
    (p2 : tests.pos m (r, x, p, s) = true) (p3 : tests.pos m (r, q, p, x) = true)
    (ha : tests.edgeAddable m (r, p) = true)
    (ht : ∀ u ∈ [x, y, q, s], tests.triAddable m (r, u, p) = true) {goals bad} (hb : GoodCall m goals bad)
    (hn : ∀ u ∈ [x, y, q, s], sorted2 (u, p) ∉ bad ∧ sorted2 (u, r) ∉ bad) :
    ∃ m' ws, m.flip44Unchecked w = some (m', ws) ∧ ProgressFlip tests m m' ∧ SparesBad m m' bad ∧
      ¬ HasEdge m' x y ∧ (∀ u, ¬ HasTri m' (x, y, u)) ∧
      ∀ g, SortedGoal g → g ≠ .edge (sorted2 (x, y)) → (∀ u ∈ [p, q, r, s], g ≠ .tri (sorted3 (x, y, u))) →
        Present m g → Present m' g := by
  obtain ⟨f, k3⟩ := h.cons.ring_tet4 k2 s3
  have hf : f = p := by
    obtain ⟨g, k4⟩ := h.cons.ring_tet4 k3 s4
    rw [hw] at k4
    cases k4
    rfl
  subst hf
  obtain ⟨x1, x2, x3, x4, x5, x6⟩ := h.cons.ne4 hw
  obtain ⟨y1, y2, y3, y4, y5, y6⟩ := h.cons.ne4 k1
  obtain ⟨z1, z2, z3, z4, z5, z6⟩ := h.cons.ne4 k2
  obtain ⟨v1, v2, v3, v4, v5, v6⟩ := h.cons.ne4 k3
  have hpr : r ≠ f := by
    rintro rfl
    exact hne (h.cons.tri_eq (tet4_parts k2).2.2.2 (tet4_parts hw).2.2.2)
  have hnew : ∀ t ∈ [(r, f, q, y), (r, f, y, s), (r, f, s, x), (r, f, x, q)], tests.pos m t = true := by
    intro t ht
    simp only [List.mem_cons, List.not_mem_nil, or_false] at ht
    rcases ht with rfl | rfl | rfl | rfl
    · exact pos_even h (nodup_of_ne4 ⟨z4.symm, hpr, y6.symm, x4, x5, x6⟩) (by same_tet) p0
    · exact pos_even h (nodup_of_ne4 ⟨z6, hpr, z4.symm, v6, v4.symm, x4.symm⟩) (by same_tet) p1
    · exact pos_even h (nodup_of_ne4 ⟨z2.symm, hpr, z6, x2, z3, v6.symm⟩) (by same_tet) p2
    · exact pos_even h (nodup_of_ne4 ⟨y6.symm, hpr, z2.symm, x6.symm, x3.symm, x2.symm⟩) (by same_tet) p3
  have f1 := (tet4_parts k1).2.1
  have f2 := (tet4_parts k2).2.1
  have hno : ¬ HasEdge m f r := fun hc =>
    h.never m (.refl m) (.inl ⟨_, _, ⟨_, _, .flip44 hw s1 s2 s3 s4 hne f1 f2 hle hlt, hc⟩, hnew⟩)
  obtain ⟨m', ws, h1, hd, h3, h5, h6⟩ := flip44_done h.cons hw s1 s2 s3 s4 hne f1 f2 hle hlt hno h.room
  have hnx : ¬ HasEdge m' x y := by
    intro hc
    rcases (h3 x y).1 hc with k | k | k
    · exact k.2.1 rfl
    · cases k
      exact x2 rfl
    · cases k
      exact x4 rfl
  have hfa := FlipAt.flip44 hw s1 s2 s3 s4 hne f1 f2 hle hlt
  rw [h1] at hfa
  refine ⟨m', _, h1, ⟨_, _, ⟨_, _, hfa, hno, h.room⟩, hnew, ?_, ?_⟩, ?_, hnx,
    fun u hu => hnx (hasTri_edge hd.cons hu), ?_⟩
  · intro u u' hu
    rcases (h3 u u').1 hu with k | k | k
    · exact .inl k.1
    · cases k
      exact .inr (.inr ha)
    · cases k
      exact .inr (.inl ha)
  · intro u1 u2 u3 hu
    rcases h6 _ hu with k | ⟨u, hu, k⟩
    · exact .inl k
    · refine .inr ⟨r, u, f, ?_, ht u hu⟩
      exact (List.perm_iff_count.2 fun z => by simp only [List.count_cons, List.count_nil]; omega : [r, u, f].Perm [f, r, u]).trans (perm_of_six3 k)
  · refine spares_of hb (us := [x, y, q, s].map fun u => (f, r, u)) ?_ ?_
    · intro s hs
      rcases h6 s hs with k | ⟨u, hu, k⟩
      · exact .inl k
      · exact .inr ⟨_, List.mem_map.2 ⟨u, hu, rfl⟩, k⟩
    · rintro t ht u1 u2 u3 hu he
      obtain ⟨u, hu', rfl⟩ := List.mem_map.1 ht
      obtain ⟨n1, n2⟩ := hn u hu'
      simp only [six3, List.mem_cons, List.not_mem_nil, or_false, Prod.mk.injEq] at hu
      rcases hu with ⟨rfl, rfl, rfl⟩ | ⟨rfl, rfl, rfl⟩ | ⟨rfl, rfl, rfl⟩ | ⟨rfl, rfl, rfl⟩ | ⟨rfl, rfl, rfl⟩ | ⟨rfl, rfl, rfl⟩ <;>
        first
        | assumption
        | exact absurd he hno
        | exact absurd (hasEdge_comm.1 he) hno
        | (rw [sorted2_swap]; assumption)
  · intro g hs hg hg' hp
    exact goal_kept (fun u u' k1 k2 k3 => (h3 u u').2 (.inl ⟨k1, k2, k3⟩)) h5 hs hg hg' hp

end Tet
