import Verif.Proofs.StarSeen

/-!
# The mesh with a vertex in an edge or triangle
-/

namespace Tet
open Spec Vec4

section
variable {P V T : Type} {m m' : Mesh P V T} {id : VId} {E : List TId} {B : List Walker} {C : List VId}

/-- The tets of the filled mesh. -/
theorem coned_kinds (hB : Boundary m E B) (hc : Coned m m' id E B) {q : V4} (hq : HasTet m' q) :
    (∃ w, w.tet ∉ E ∧ m.tet4 w = some q) ∨ ∃ w a b c, Outer m E w ∧ m.tri w = some (a, b, c) ∧ SameTet (a, b, c, id) q := by
  obtain ⟨old, new, h1, h2, h3, h4, h5⟩ := hc.tets
  rcases (h5 _).1 hq with ⟨⟨x, hx⟩, hold⟩ | ⟨⟨a, b, c, u⟩, hp, hs⟩
  · refine .inl ⟨x, fun hE => ?_, hx⟩
    have : m.tet4 (Mesh.walkerFromTetId x.tet) ∈ old.map some := by
      rw [← h1]
      exact List.mem_map.2 ⟨_, hE, rfl⟩
    obtain ⟨o, ho, ho'⟩ := List.mem_map.1 this
    exact hold o ho (tet4_same (w := Mesh.walkerFromTetId x.tet) (w' := x) rfl ho'.symm hx)
  · have hu := h3 _ hp
    simp only at hu
    subst hu
    have hmem : some (a, b, c) ∈ B.map m.tri := by
      rw [h2]
      exact List.mem_map.2 ⟨_, hp, rfl⟩
    obtain ⟨b', hb', ht⟩ := List.mem_map.1 hmem
    exact .inr ⟨b', a, b, c, (hB.exact b').1 ⟨b', hb', .inl rfl⟩, ht, hs⟩

theorem coned_keep (hm : Consistent m) (hc : Coned m m' id E B) {w : Walker} {q : V4} (hw : w.tet ∉ E) (hq : m.tet4 w = some q) : HasTet m' q := by
  obtain ⟨old, new, h1, h2, h3, h4, h5⟩ := hc.tets
  refine (h5 q).2 (.inl ⟨⟨w, hq⟩, fun p hp hs => hw ?_⟩)
  have hp' : some p ∈ E.map (fun k => m.tet4 (Mesh.walkerFromTetId k)) := by
    rw [h1]; exact List.mem_map_of_mem hp
  obtain ⟨k, hk, hkp⟩ := List.mem_map.1 hp'
  obtain ⟨a, b, c, d⟩ := q
  obtain ⟨w', k1, k2⟩ := tet4_write hkp hs
  have : w.tet = w'.tet := by
    rcases hm.triUnique w' w _ _ (tet4_parts k2).2.2.2 (tet4_parts hq).2.2.2 (.inl rfl) with rfl | rfl | rfl <;> rfl
  rw [this, k1]
  exact hk

theorem hasTet_of (hm' : Consistent m') {p q : V4} (h : HasTet m' p) (hs : SameTet p q) : HasTet m' q := by
  obtain ⟨w, hw⟩ := h
  obtain ⟨w', -, h⟩ := tet4_write hw hs
  exact ⟨w', h⟩

theorem coned_cone (hm' : Consistent m') (hB : Boundary m E B) (hc : Coned m m' id E B) {w : Walker} {a b c : VId} (ho : Outer m E w)
    (hw : m.tri w = some (a, b, c)) : HasTet m' (a, b, c, id) := by
  obtain ⟨old, new, h1, h2, h3, h4, h5⟩ := hc.tets
  obtain ⟨b', hb', hs⟩ := (hB.exact w).2 ho
  have hmem : m.tri b' ∈ new.map (fun q => some (q.1, q.2.1, q.2.2.1)) := by
    rw [← h2]; exact List.mem_map_of_mem hb'
  obtain ⟨⟨x, y, z, u⟩, hq, hqt⟩ := List.mem_map.1 hmem
  obtain ⟨vs, k1, k2⟩ := rotation_walker hs hqt.symm
  rw [hw] at k1
  cases k1
  have hu := h3 _ hq
  simp only at hu
  subst hu
  refine hasTet_of hm' (p := (x, y, z, u)) ((h5 _).2 (.inr ⟨_, hq, mem_twelve.1 (by simp [twelve])⟩)) ?_
  rcases k2 with h | h | h <;> simp only [Prod.mk.injEq] at h <;> obtain ⟨rfl, rfl, rfl⟩ := h <;> exact mem_twelve.1 (by simp [twelve])

theorem lockedEdge_comm {a b : VId} (h : LockedEdge m a b) : LockedEdge m b a := by
  obtain ⟨e, ue, h1, h2, h3⟩ := h
  exact ⟨e, ue, h1, by rw [h2, min_comm, max_comm], h3⟩

theorem unsplittable_edge {g : EdgeOrTri} (hn : (corners g).Nodup) {a b : VId} (hs : corners g ⊆ [a, b]) (hl : LockedEdge m a b) : Unsplittable m g := by
  cases g with
  | edge e =>
    obtain ⟨x, y⟩ := e
    simp only [corners, List.nodup_cons, List.mem_cons, List.not_mem_nil, or_false, not_false_eq_true, List.nodup_nil, and_true] at hn
    have hx := hs (a := x) (by simp [corners])
    have hy := hs (a := y) (by simp [corners])
    simp only [List.mem_cons, List.not_mem_nil, or_false] at hx hy
    left
    change LockedEdge m x y
    rcases hx with rfl | rfl <;> rcases hy with rfl | rfl
    · exact absurd rfl hn
    · exact hl
    · exact lockedEdge_comm hl
    · exact absurd rfl hn
  | tri t =>
    have := (hn.subperm hs).length_le
    obtain ⟨x, y, z⟩ := t
    simp [corners] at this

theorem unsplittable_tri (hm : Consistent m) {g : EdgeOrTri} (hn : (corners g).Nodup) {a b c : VId} (hs : corners g ⊆ [a, b, c])
    (hl : LockedTri m (a, b, c)) : Unsplittable m g := by
  have l1 := lockedTri_turn hm hl
  have l2 := lockedTri_turn hm l1
  have l3 := lockedTri_flip hm hl
  have l4 := lockedTri_turn hm l3
  have l5 := lockedTri_turn hm l4
  cases g with
  | edge e =>
    obtain ⟨x, y⟩ := e
    simp only [corners, List.nodup_cons, List.mem_cons, List.not_mem_nil, or_false, not_false_eq_true, List.nodup_nil, and_true] at hn
    have hx := hs (a := x) (by simp [corners])
    have hy := hs (a := y) (by simp [corners])
    simp only [List.mem_cons, List.not_mem_nil, or_false] at hx hy
    right
    change ∃ c, LockedTri m (x, y, c)
    rcases hx with rfl | rfl | rfl <;> rcases hy with rfl | rfl | rfl <;> first
      | exact absurd rfl hn
      | exact ⟨_, hl⟩
      | exact ⟨_, l1⟩
      | exact ⟨_, l2⟩
      | exact ⟨_, l3⟩
      | exact ⟨_, l4⟩
      | exact ⟨_, l5⟩
  | tri t =>
    obtain ⟨x, y, z⟩ := t
    simp only [corners, List.nodup_cons, List.mem_cons, List.not_mem_nil, or_false, not_or, not_false_eq_true, List.nodup_nil, and_true] at hn
    have hx := hs (a := x) (by simp [corners])
    have hy := hs (a := y) (by simp [corners])
    have hz := hs (a := z) (by simp [corners])
    simp only [List.mem_cons, List.not_mem_nil, or_false] at hx hy hz
    change LockedTri m (x, y, z)
    rcases hx with rfl | rfl | rfl <;> rcases hy with rfl | rfl | rfl <;> rcases hz with rfl | rfl | rfl <;> first
      | exact absurd rfl hn.1.1
      | exact absurd rfl hn.1.2
      | exact absurd rfl hn.2
      | exact hl
      | exact l1
      | exact l2
      | exact l3
      | exact l4
      | exact l5

/-- Elements have different vertices. -/
theorem corners_nodup (hm : Consistent m) {g : EdgeOrTri} (hg : Present m g) :
    (corners g).Nodup ∧ 2 ≤ (corners g).length ∧ ∀ v ∈ corners g, InMesh m v := by
  cases g with
  | edge e =>
    obtain ⟨a, b⟩ := e
    obtain ⟨c, d, x, hx⟩ := hm.toT.hasEdge_tet.1 (show HasEdge m a b from hg)
    have hn := hm.distinct _ _ _ _ _ hx
    simp only [List.nodup_cons, List.mem_cons, List.not_mem_nil, or_false, not_or] at hn
    refine ⟨by simp [corners, hn.1.1], by simp [corners], ?_⟩
    intro v hv
    simp only [corners, List.mem_cons, List.not_mem_nil, or_false] at hv
    rcases hv with rfl | rfl
    · exact inMesh_of_hasTet ⟨x, hx⟩ 0
    · exact inMesh_of_hasTet ⟨x, hx⟩ 1
  | tri t =>
    obtain ⟨a, b, c⟩ := t
    obtain ⟨x, hx⟩ := (show HasTri m (a, b, c) from hg)
    obtain ⟨d, hx⟩ := tri_tet4 hx
    have hn := hm.distinct _ _ _ _ _ hx
    simp only [List.nodup_cons, List.mem_cons, List.not_mem_nil, or_false, not_or] at hn
    refine ⟨by simp [corners, hn.1.1, hn.1.2.1, hn.2.1.1], by simp [corners], ?_⟩
    intro v hv
    simp only [corners, List.mem_cons, List.not_mem_nil, or_false] at hv
    rcases hv with rfl | rfl | rfl
    · exact inMesh_of_hasTet ⟨x, hx⟩ 0
    · exact inMesh_of_hasTet ⟨x, hx⟩ 1
    · exact inMesh_of_hasTet ⟨x, hx⟩ 2

/-- A tet that has all corners of an element. -/
theorem present_tet (hm : Consistent m) {g : EdgeOrTri} (hg : Present m g) : ∃ a b c d, HasTet m (a, b, c, d) ∧ corners g ⊆ [a, b, c, d] := by
  cases g with
  | edge e =>
    obtain ⟨a, b⟩ := e
    obtain ⟨c, d, x⟩ := hm.toT.hasEdge_tet.1 (show HasEdge m a b from hg)
    exact ⟨a, b, c, d, x, by simp [corners]⟩
  | tri t =>
    obtain ⟨a, b, c⟩ := t
    obtain ⟨x, hx⟩ := (show HasTri m (a, b, c) from hg)
    obtain ⟨d, hx⟩ := tri_tet4 hx
    exact ⟨a, b, c, d, ⟨x, hx⟩, by simp [corners]⟩

end

variable {K V T : Type} [Field K] [LinearOrder K] [IsStrictOrderedRing K] {m m1 m' : Mesh (Pt K) V T} {id : VId} {E S : List TId}
  {B : List Walker} {C : List VId}

/-- An edge inside the tets has all corners. -/
theorem surrounded_corners (hE : AllAt m C E) (hm : Consistent m) (ht : Tiles m) {w : Walker} {a b : VId} (hw : m.edge w = some (a, b))
    (hs : Surrounded m E w) : C ⊆ [a, b] := by
  obtain ⟨c, d, h4⟩ := edge_tet4 hw
  have hk : w.tet ∈ E := hs w (.refl _)
  intro v hv
  have hv' := (hE.mem _ _ _ _ _ h4).1 hk hv
  simp only [List.mem_cons, List.not_mem_nil, or_false] at hv' ⊢
  rcases hv' with rfl | rfl | rfl | rfl
  · exact .inl rfl
  · exact .inr rfl
  · obtain ⟨-, w', h1, h2⟩ := (hE.outer_iff hm ht (tet4_turns h4).2.2.1 hk).2 hv
    exact absurd (hs w' (.step (.refl _) h1)) h2
  · obtain ⟨-, w', h1, h2⟩ := (hE.outer_iff hm ht h4 hk).2 hv
    obtain ⟨w2, e, h3, h5⟩ := adj_tet4 hm h4
    rw [h1] at h3
    cases h3
    have h6 := (tet4_parts (tet4_turns h5).2.2.1).2.2.1
    exact absurd (hs w'.twin (hm.oneRing w _ _ hw h6)) h2

/-- No tet has all corners any more. -/
theorem coned_gone (hE : AllAt m C E) (hm : Consistent m) (hES : ∀ k ∈ E, k ∈ S) (hB : Boundary m S B)
    (hc : Coned m m' id S B) (hid : id ∉ C) {a b c d : VId} (hq : HasTet m' (a, b, c, d)) : ¬ C ⊆ [a, b, c, d] := by
  intro hC
  rcases coned_kinds hB hc hq with ⟨w, h1, h2⟩ | ⟨w, x, y, z, h1, h2, h3⟩
  · exact h1 (hES _ ((hE.mem _ _ _ _ _ h2).2 hC))
  · obtain ⟨-, w', h4, h5⟩ := h1
    obtain ⟨u, h2⟩ := tri_tet4 h2
    obtain ⟨w2, e, h6, h7⟩ := adj_tet4 hm h2
    rw [h4] at h6
    cases h6
    refine h5 (hES _ ((hE.mem _ _ _ _ _ h7).2 fun v hv => ?_))
    have : HasV (x, y, z, id) v := (sameTet_hasV h3).1 (hC hv)
    simp only [HasV, List.mem_cons, List.not_mem_nil, or_false] at this ⊢
    rcases this with rfl | rfl | rfl | rfl
    · simp
    · simp
    · simp
    · exact absurd hv hid

/-- Locked edges stay. -/
theorem coned_edge (hE : AllAt m C E) (hm : Consistent m) (ht : Tiles m) (hm' : Consistent m') (hc : Coned m m' id S B)
    (hsur : ∀ w, EdgeLocked m w → Surrounded m S w → Surrounded m E w)
    (hu : ∀ a b, LockedEdge m a b → ¬ C ⊆ [a, b]) {a b : VId} (hl : LockedEdge m a b) : HasEdge m' a b := by
  obtain ⟨e, ue, h1, h2, h3⟩ := hl
  obtain ⟨c, d, w, hw⟩ := hm.toT.hasEdge_tet.1 ⟨e, ue, h1, h2⟩
  have he := (tet4_parts hw).2.2.1
  by_cases hex : ∃ w', m.edge w' = some (a, b) ∧ w'.tet ∉ S
  · obtain ⟨w', k1, k2⟩ := hex
    obtain ⟨c', d', k3⟩ := edge_tet4 k1
    exact hm'.toT.hasEdge_tet.2 ⟨c', d', coned_keep hm hc k2 k3⟩
  · push Not at hex
    have hlock : EdgeLocked m w := by
      obtain ⟨e', ue', k1, k2, k3⟩ := hm.edgePtr w a b he
      have := hm.edgeUnique _ _ _ _ k2 h1 (k3.trans h2.symm)
      subst this
      rw [h1] at k2
      cases k2
      exact ⟨e', ue, k1, h1, h3⟩
    have hS : Surrounded m S w := fun w' hr => hex w' (ring_star hm.toT he hr).2
    exact absurd (surrounded_corners hE hm ht he (hsur w hlock hS)) (hu a b ⟨e, ue, h1, h2, h3⟩)

/-- Locked triangles with locked edges stay. -/
theorem coned_tri (hE : AllAt m C E) (hm : Consistent m) (ht : Tiles m) (hm' : Consistent m') (hB : Boundary m S B) (hc : Coned m m' id S B)
    (hboth : ∀ w w', TriAndEdgesLocked m w → m.toAdj w = some w' → w.tet ∈ S → w'.tet ∈ S → w.tet ∈ E ∧ w'.tet ∈ E)
    (hu : ∀ a b c, LockedTri m (a, b, c) → ¬ C ⊆ [a, b, c]) {a b c : VId} (hl : LockedTri m (a, b, c)) (h1 : LockedEdge m a b)
    (h2 : LockedEdge m b c) (h3 : LockedEdge m c a) : HasTri m' (a, b, c) := by
  obtain ⟨w, hw, hlw⟩ := hl
  obtain ⟨d, hq⟩ := tri_tet4 hw
  have tri_of : ∀ {d}, HasTet m' (a, b, c, d) → HasTri m' (a, b, c) := fun ⟨x, hx⟩ => ⟨x, (tet4_parts hx).2.2.2⟩
  by_cases hS : w.tet ∈ S
  · obtain ⟨w', e, h4, h5⟩ := adj_tet4 hm hq
    by_cases hS' : w'.tet ∈ S
    · have lock : ∀ {x y : VId} {u : Walker}, m.edge u = some (x, y) → LockedEdge m x y → EdgeLocked m u := by
        rintro x y u hu ⟨e, ue, j1, j2, j3⟩
        obtain ⟨e', ue', k1, k2, k3⟩ := hm.edgePtr u x y hu
        have := hm.edgeUnique _ _ _ _ k2 j1 (k3.trans j2.symm)
        subst this
        rw [j1] at k2
        cases k2
        exact ⟨e', ue, k1, j1, j3⟩
      obtain ⟨k1, k2⟩ := hboth w w' ⟨hlw, lock (tet4_parts hq).2.2.1 h1, lock (tet4_parts (tet4_turns hq).2.2.2.2.1).2.2.1 h2,
        lock (tet4_parts (tet4_turns hq).2.2.2.2.2).2.2.1 h3⟩ h4 hS hS'
      have hd : d ∉ C := by
        intro hd
        obtain ⟨-, w2, j1, j2⟩ := (hE.outer_iff hm ht hq k1).2 hd
        rw [h4] at j1
        cases j1
        exact j2 k2
      refine absurd (fun v hv => ?_) (hu a b c ⟨w, hw, hlw⟩)
      have := (hE.mem _ _ _ _ _ hq).1 k1 hv
      simp only [List.mem_cons, List.not_mem_nil, or_false] at this ⊢
      rcases this with rfl | rfl | rfl | rfl
      · simp
      · simp
      · simp
      · exact absurd hv hd
    · exact tri_of (coned_cone hm' hB hc ⟨hS, w', h4, hS'⟩ hw)
  · exact tri_of (coned_keep hm hc hS hq)

/-- Changing the vectors of vertices of no tet. -/
theorem Fan.congr_on {h h' : VId → Vec4 K} {wt : Vec4 K →ₗ[K] K} {S : V4 → Prop} (hf : Tet.Fan h wt S)
    (he : ∀ q v, S q → HasV q v → h' v = h v) : Tet.Fan h' wt S := by
  have hD : ∀ q, S q → D h' q = D h q := by
    rintro ⟨a, b, c, d⟩ hq
    simp only [D, he _ a hq (by simp [HasV]), he _ b hq (by simp [HasV]), he _ c hq (by simp [HasV]), he _ d hq (by simp [HasV])]
  have hF : ∀ q, S q → F h' q = F h q := by
    rintro ⟨a, b, c, d⟩ hq
    simp only [F, he _ a hq (by simp [HasV]), he _ b hq (by simp [HasV]), he _ c hq (by simp [HasV])]
  have hC : ∀ q x, S q → (Cell h' q x ↔ Cell h q x) := by
    rintro ⟨a, b, c, d⟩ x hq
    simp only [Cell, he _ a hq (by simp [HasV]), he _ b hq (by simp [HasV]), he _ c hq (by simp [HasV]), he _ d hq (by simp [HasV])]
  refine ⟨hf.closed, hf.fin, fun q hq => by rw [hD q hq]; exact hf.pos q hq, fun x hx hfree => ?_⟩
  obtain ⟨q, h1, h2, h3⟩ := hf.once x hx fun q hq => by rw [← hF q hq]; exact hfree q hq
  exact ⟨q, h1, (hC q x h1).2 h2, fun q' h4 h5 => h3 q' h4 ((hC q' x h4).1 h5)⟩

/-! ### Putting the vertex in -/

theorem homv_of_At {p : Pt K} {v : VId} (h : At m v p) : homv m v = hom p := by
  obtain ⟨h1, x, h2, h3⟩ := h
  rw [homv, if_neg h1]
  simp [Mesh.idx, h2, h3]

/-- Weights of a point between the vertices. -/
theorem Amid.weights {p : Pt K} (h : Amid m C p) (hid : At m1 id p) (hn : C.Nodup) (h2 : 2 ≤ C.length) (he : ∀ v ∈ C, homv m1 v = homv m v) :
    ∃ φ, Weights m1 id C φ := by
  classical
  obtain ⟨wt, q, k1, k2, k3, k4, k5⟩ := h
  refine ⟨fun v => if v ∈ C then wt v else 0, fun v hv => by simp [hv, (k1 v hv).1], fun v hv => by simp [hv], ?_, hn, h2⟩
  have hv : ∀ v ∈ C, (if v ∈ C then wt v else 0) • homv m1 v = (Mesh.ghostSign [v] * wt v) • hom (q v) := by
    intro v hv
    rw [if_pos hv, he v hv]
    have := (k1 v hv).2
    unfold Mesh.idxOri at this
    unfold homv Mesh.ghostSign
    by_cases hg : v = GHOST
    · rw [if_pos hg] at this ⊢
      have hq : q v = m.center := (Option.some.inj this).symm
      rw [hq]
      simp [hg]
    · rw [if_neg hg] at this ⊢
      rw [this]
      have : GHOST ∉ [v] := by simpa using Ne.symm hg
      simp [this]
  rw [List.map_congr_left hv, homv_of_At hid]
  have aux : ∀ (l : List VId) (i : Fin 4), (l.map fun v => ((Mesh.ghostSign [v] : K) * wt v) • hom (q v)).sum i =
      (l.map fun v => (Mesh.ghostSign [v] : K) * wt v * hom (q v) i).sum := by
    intro l i
    induction l with
    | nil => rfl
    | cons a l ih => simp [ih]
  funext i
  rw [aux]
  match i with
  | 0 => exact k3
  | 1 => exact k4
  | 2 => exact k5
  | 3 =>
    change (1 : K) = (C.map fun v => Mesh.ghostSign [v] * wt v * 1).sum
    simpa using k2.symm

/-- A further vertex does not change that the mesh fills space. -/
theorem Spec.Sound.addVertex (hs : Sound m) {p : Pt K} {x : V} {vs s} (h : m.vertices.insert (Vertex.new invalidWalker p x) = some (vs, s)) :
    Sound { m with vertices := vs } ∧ At { m with vertices := vs } s p ∧ m.vertices.get s = none ∧ ¬ InMesh m s ∧
      (∀ v, v ≠ s → homv { m with vertices := vs } v = homv m v) ∧ ∀ v, vs.get v = if v = s then some (Vertex.new invalidWalker p x) else m.vertices.get v := by
  obtain ⟨a1, a2, a3⟩ := hs.consistent.toT.addVertex h
  obtain ⟨b1, b2, b3, b4, -⟩ := IdMap.insert_some hs.consistent.toT.stored.1 h
  have hh : ∀ v, v ≠ s → homv { m with vertices := vs } v = homv m v := by
    intro v hv
    unfold homv
    simp only [Mesh.idx, b4, if_neg hv]
  refine ⟨⟨a1.toSpec, ?_, ⟨hs.tidy.tets, hs.tidy.edges, ?_, hs.tidy.ghost⟩, hs.unmarked⟩, ⟨Nat.ne_of_lt b3, _, a2, rfl⟩, b2,
    fun ⟨w, hw⟩ => a3 w hw, hh, b4⟩
  · have hfan : Tet.Fan (homv m) last4 (HasTet { m with vertices := vs }) := hs.tiles.fan hs.consistent.toT
    refine (tiles_iff a1.placed).2 (Fan.congr_on hfan ?_)
    rintro ⟨a, b, c, d⟩ v hq hv
    apply hh
    rintro rfl
    obtain ⟨w, hw⟩ : InMesh m v := by
      simp only [HasV, List.mem_cons, List.not_mem_nil, or_false] at hv
      rcases hv with rfl | rfl | rfl | rfl
      · exact inMesh_of_hasTet hq 0
      · exact inMesh_of_hasTet hq 1
      · exact inMesh_of_hasTet hq 2
      · exact inMesh_of_hasTet hq 3
    exact a3 w hw
  · intro v y hy
    change vs.get v = some y at hy
    rw [b4] at hy
    split_ifs at hy
    · cases hy; rfl
    · exact hs.tidy.vertices v y hy

theorem flipIn_settles {P V T : Type} (m : Mesh P V T) (v : VId) (B : List Walker) (E : List TId) :
    (∃ r fuel, m.flipInVertexUnchecked v B E fuel = some r ∧ Settles (m.flipInVertexUnchecked v B E ·) (some r)) ∨
      Settles (m.flipInVertexUnchecked v B E ·) none ∧ ∀ fuel, m.flipInVertexUnchecked v B E fuel = none := by
  by_cases h : ∃ fuel, (m.flipInVertexUnchecked v B E fuel).isSome
  · obtain ⟨fuel, h⟩ := h
    obtain ⟨⟨m', B'⟩, h⟩ := Option.isSome_iff_exists.1 h
    exact .inl ⟨_, fuel, h, fuel, fun n hn => flipIn_mono hn h⟩
  · push Not at h
    have : ∀ fuel, m.flipInVertexUnchecked v B E fuel = none := by
      intro fuel
      simpa using h fuel
    exact .inr ⟨⟨0, fun n _ => this n⟩, this⟩

/-- Putting a vertex in, as far as the outer triangles of the initial tets are seen from the point, where `N` says why not. -/
theorem insert_core (hs : Sound m) {g : EdgeOrTri} (hg : Present m g) {p : Pt K} {v0 : VId} {x0 : Vertex (Pt K) V}
    (h0 : m.vertices.get v0 = some x0) {N Q : Prop} (hstart : ∀ (m1 : Mesh (Pt K) V T) s B E, Sound m1 → At m1 s p → s ∉ corners g →
      (∀ v, v ≠ s → homv m1 v = homv m v) → (∀ v, InMesh m1 v ↔ InMesh m v) → (∀ v q, v ≠ s → At m v q → At m1 v q) → ¬ InMesh m s → AllAt m1 (corners g) E → Boundary m1 E B →
      StarStart m1 s p E B ∧ Q ∨ N ∧ ∀ n, Mesh.pointCavity (pointTests m1 s) B E [] m1 false true true n = none) :
    Does (m.insertSteiner · v0 g p) fun r =>
      (r = none ∧ (Unsplittable m g ∨ ¬ Findable m g ∨ ¬ EnoughIds m ∨ N)) ∨
        ∃ m' s, r = some (m', s) ∧ ¬ Unsplittable m g ∧ Q ∧ Split m m' g s p x0.value := by
  rcases hins : m.vertices.insert (Vertex.new invalidWalker p x0.value) with _ | ⟨vs, s⟩
  · refine (does_const (r := none) (.inl ⟨rfl, .inr (.inr (.inl ?_))⟩)).congr fun n => by
      simp only [Mesh.insertSteiner, h0, hins, Option.bind_eq_bind, Option.bind_some, Option.bind_none]
    rintro ⟨nV, nE, nT, h1, -, -, h2, -⟩
    have hwf := hs.consistent.toT.stored.1
    obtain ⟨m', k, h3⟩ := IdMap.insert_isSome (v := Vertex.new invalidWalker p x0.value) hwf (by
      rw [Mesh.numVertices, hwf.len_eq] at h1
      cases h1
      exact h2)
    rw [hins] at h3
    cases h3
  obtain ⟨s1, hat, hfresh, hnew, hh, hget⟩ := hs.addVertex hins
  obtain ⟨cn, c2, cin⟩ := corners_nodup hs.consistent hg
  have hsC : s ∉ corners g := fun h => hnew (cin s h)
  generalize hm1 : ({ m with vertices := vs } : Mesh (Pt K) V T) = m1 at s1 hat hh
  have hcen : m1.center = m.center := by rw [← hm1]
  have hv1 : m1.vertices = vs := by rw [← hm1]
  have hen : EnoughIds m → ∃ nE nT, m1.numEdges = some nE ∧ m1.numTets = some nT ∧ 5 * nT ≤ idMax ∧ nE + 12 * nT ≤ idMax := by
    rintro ⟨nV, nE, nT, -, k1, k2, -, k3, k4⟩
    exact ⟨nE, nT, by rw [← hm1]; exact k1, by rw [← hm1]; exact k2, k3, k4⟩
  have hg1 : Present m1 g := by rw [← hm1]; cases g <;> exact hg
  have hus : Unsplittable m1 g ↔ Unsplittable m g := by rw [← hm1]; cases g <;> exact Iff.rfl
  have hfi : Findable m1 g ↔ Findable m g := by rw [← hm1]; cases g <;> exact Iff.rfl
  have hle : ∀ a b, LockedEdge m1 a b ↔ LockedEdge m a b := by intro a b; rw [← hm1]; exact Iff.rfl
  have hlt : ∀ t, LockedTri m1 t ↔ LockedTri m t := by intro t; rw [← hm1]; exact Iff.rfl
  have him : ∀ v, InMesh m1 v ↔ InMesh m v := by intro t; rw [← hm1]; exact Iff.rfl
  have hkeep : ∀ v q, v ≠ s → At m v q → At m1 v q := by
    rintro v q hv ⟨k1, y, k2, k3⟩
    exact ⟨k1, y, by rw [hv1, hget, if_neg hv]; exact k2, k3⟩
  have hm := s1.consistent
  have ht := s1.tiles
  have hrun : ∀ n, m.insertSteiner n v0 g p = (m1.steinerStart n g).bind fun be =>
      (Mesh.pointCavity (pointTests m1 s) be.1 be.2 [] m1 false true true n).bind fun r =>
        (r.1.flipInVertexUnchecked s r.2.1 r.2.2 n).bind fun r => some (r.1, s) := by
    intro n
    rw [← hm1]
    simp only [Mesh.insertSteiner, h0, hins, Option.bind_eq_bind, Option.bind_some]
    rfl
  refine Does.congr ?_ hrun
  refine (steinerStart_does hm ht hg1).bind ?_ ?_
  · rintro ⟨B, E⟩ (⟨h, -⟩ | ⟨B', E', h, hnu, hE, hB⟩) -
    · cases h
    cases h
    rcases hstart m1 s B E s1 hat hsC hh him hkeep hnew hE hB with ⟨hst, hQ⟩ | ⟨hN, hnone⟩
    swap
    · exact Does.bind (Q := fun r => r = none) ⟨_, ⟨0, fun n _ => hnone n⟩, rfl⟩ (by simp) fun _ _ => .inl ⟨rfl, .inr (.inr (.inr hN))⟩
    obtain ⟨n, S, B', k1, k2, k3, k4, k5, k6, k7, k8⟩ := hst.grow s1.unmarked
    refine Does.bind (Q := fun r => r = some (m1, B', S)) ⟨_, ⟨n, k1⟩, rfl⟩ ?_ (by simp)
    rintro ⟨_, _, _⟩ hr -
    cases hr
    simp only
    have hx1 : m1.vertices.get s = some (Vertex.new invalidWalker p x0.value) := by rw [hv1, hget, if_pos rfl]
    rcases flipIn_settles m1 s B' S with ⟨⟨m', B''⟩, fuel, f1, f2⟩ | ⟨f1, f2⟩
    · refine Does.bind (Q := fun r => r = some (m', B'')) ⟨_, f2, rfl⟩ ?_ (by simp)
      rintro ⟨_, _⟩ hr -
      cases hr
      refine does_const (.inr ⟨m', s, rfl, fun h => hnu (hus.2 h), hQ, ?_⟩)
      obtain ⟨old, new, r1, r2, r3, r4, r5, -, r7, r8, r9, r10, r11⟩ :=
        C42_returns hm s1.tidy k6 k2 k4 hx1 rfl f1
      have hcone : Coned m1 m' s S B' := ⟨⟨old, new, r2, r3, r4, r5⟩, r7, fun u => by
        have := congrArg (Option.map fun y : Pt K × V × _ => (y.1, y.2.1)) (r8 u)
        simpa [Option.map_map, Function.comp_def] using this⟩
      have hpay := hcone.payload
      have hu1 : ∀ a b, LockedEdge m1 a b → ¬ corners g ⊆ [a, b] := fun a b hl hC => hnu (unsplittable_edge cn hC hl)
      have hu2 : ∀ a b c, LockedTri m1 (a, b, c) → ¬ corners g ⊆ [a, b, c] := fun a b c hl hC => hnu (unsplittable_tri hm cn hC hl)
      refine ⟨⟨r1, k5.result k4 hcone r1 r11, r9, r10 s1.unmarked⟩, hfresh, ?_, ?_, ?_, r11.trans hcen, ?_, ?_, ?_, ?_, ?_⟩
      · have := hpay s
        rw [hx1] at this
        obtain ⟨y, h1, h2⟩ := Option.map_eq_some_iff.1 this
        simp only [Prod.mk.injEq] at h2
        exact ⟨⟨hat.1, y, h1, h2.1⟩, y, h1, h2.2⟩
      · intro v hv
        rw [hpay, hv1, hget, if_neg hv]
      · intro v
        constructor
        · intro h
          rcases coned_vertices k4 hcone h with h | h
          · exact .inr ((him v).1 h)
          · exact .inl h
        · rintro (rfl | h)
          · exact coned_new k6 k4 hcone fun h => hE.ne (List.eq_nil_iff_forall_not_mem.2 fun k hk => by simpa [h] using k3 k hk)
          · exact coned_inMesh k6 k4 hcone ((him v).2 h)
      · intro v hv
        obtain ⟨a, b, c, d, ⟨w, hw⟩, hC⟩ := present_tet hm hg1
        have hwE := (hE.mem _ _ _ _ _ hw).2 hC
        obtain ⟨w2, b2, c2, d2, h1, h2⟩ : ∃ w2 b2 c2 d2, w2.tet = w.tet ∧ m1.tet4 w2 = some (v, b2, c2, d2) := by
          have hv' := hC hv
          simp only [List.mem_cons, List.not_mem_nil, or_false] at hv'
          rcases hv' with rfl | rfl | rfl | rfl
          · exact ⟨w, b, c, d, rfl, hw⟩
          · obtain ⟨w2, h1, h2⟩ := tet4_write (q := (v, a, d, c)) hw (mem_twelve.1 (by simp [twelve]))
            exact ⟨w2, _, _, _, h1, h2⟩
          · obtain ⟨w2, h1, h2⟩ := tet4_write (q := (v, a, b, d)) hw (mem_twelve.1 (by simp [twelve]))
            exact ⟨w2, _, _, _, h1, h2⟩
          · obtain ⟨w2, h1, h2⟩ := tet4_write (q := (v, a, c, b)) hw (mem_twelve.1 (by simp [twelve]))
            exact ⟨w2, _, _, _, h1, h2⟩
        obtain ⟨w', h3, h4⟩ := k6.surface w2 v (by rw [h1]; exact k3 _ hwE) (tet4_parts h2).1
        obtain ⟨x, y, z, h5⟩ := first_tet4 h4
        have h6 := coned_cone r1 k4 hcone h3 (tet4_parts h5).2.2.2
        exact r1.toT.hasEdge_tet.2 ⟨_, _, hasTet_of r1 (q := (v, s, x, y)) h6 (mem_twelve.1 (by simp [twelve]))⟩
      · intro h
        obtain ⟨a, b, c, d, hq, hC⟩ := present_tet r1 h
        exact coned_gone hE hm k3 k4 hcone hsC hq hC
      · intro a b
        constructor
        · intro h
          have he : HasEdge m' a b := by
            obtain ⟨e, ue, h1, h2, -⟩ := h
            exact ⟨e, ue, h1, h2⟩
          exact (hle a b).1 ((r7.edge a b he).1 h)
        · intro h
          have h := (hle a b).2 h
          exact (r7.edge a b (coned_edge hE hm ht r1 hcone k7 hu1 h)).2 h
      · intro t h
        have he : HasTri m' t := by
          obtain ⟨w, h1, -⟩ := h
          exact ⟨w, h1⟩
        exact (hlt t).1 ((r7.tri t he).1 h)
      · intro a b c h h1 h2 h3
        have h := (hlt _).2 h
        exact (r7.tri _ (coned_tri hE hm ht r1 k4 hcone k8 hu2 h ((hle _ _).2 h1) ((hle _ _).2 h2) ((hle _ _).2 h3))).2 h
    · refine Does.bind (Q := fun r => r = none) ⟨_, f1, rfl⟩ (by simp) fun _ _ => .inl ⟨rfl, .inr (.inr (.inl fun he => ?_))⟩
      obtain ⟨nE, nT, e1, e2, e3, e4⟩ := hen he
      have hlen := boundary_length hm k4 k6.live e2
      obtain ⟨m', B'', -, -, j1, -⟩ := C42_fill hm s1.tidy k6 k2 k4 hx1 rfl e2 e1 (by omega) (by omega)
      have := j1 _ (Nat.le_refl _)
      rw [f2] at this
      cases this
  · rintro (⟨-, h | h⟩ | ⟨B', E', h, -⟩) -
    · exact .inl ⟨rfl, .inl (hus.1 h)⟩
    · exact .inl ⟨rfl, .inr (.inl fun h' => h (hfi.2 h'))⟩
    · cases h

theorem insert_split (hs : Sound m) {g : EdgeOrTri} (hg : Present m g) {p : Pt K} (ha : Amid m (corners g) p) {v0 : VId} {x0 : Vertex (Pt K) V}
    (h0 : m.vertices.get v0 = some x0) : Does (m.insertSteiner · v0 g p) fun r =>
      (r = none ∧ (Unsplittable m g ∨ ¬ Findable m g ∨ ¬ EnoughIds m)) ∨ ∃ m' s, r = some (m', s) ∧ ¬ Unsplittable m g ∧ Split m m' g s p x0.value := by
  obtain ⟨cn, c2, -⟩ := corners_nodup hs.consistent hg
  obtain ⟨r, hr, h⟩ := insert_core hs hg (p := p) h0 (N := False) (Q := True) fun m1 s B E s1 hat hsC hh _ _ _ hE hB => by
    obtain ⟨φ, hφ⟩ := Amid.weights ha hat cn c2 fun v hv => hh v fun h => hsC (h ▸ hv)
    exact .inl ⟨hφ.start hE s1.consistent s1.tiles hat hB, trivial⟩
  refine ⟨r, hr, h.imp (fun h => ⟨h.1, ?_⟩) fun ⟨m', s, h1, h2, _, h3⟩ => ⟨m', s, h1, h2, h3⟩⟩
  rcases h.2 with h | h | h | h
  · exact .inl h
  · exact .inr (.inl h)
  · exact .inr (.inr h)
  · exact h.elim

/-- Putting a vertex into an edge, whatever the point is: if this is possible, the mesh still fills space; and it is not possible if
there is a vertex at the point. -/
theorem insert_edge (hs : Sound m) {e : VId × VId} (hg : HasEdge m e.1 e.2) (p : Pt K) {v0 : VId} {x0 : Vertex (Pt K) V}
    (h0 : m.vertices.get v0 = some x0) : Does (m.insertSteiner · v0 (.edge e) p) fun r =>
      ∀ m' s, r = some (m', s) → Split m m' (.edge e) s p x0.value ∧ ¬ ∃ v, InMesh m v ∧ At m v p := by
  obtain ⟨cn, -, -⟩ := corners_nodup (g := .edge e) hs.consistent hg
  obtain ⟨r, hr, h⟩ := insert_core hs (g := .edge e) hg (p := p) h0 (N := True) (Q := ¬ ∃ v, InMesh m v ∧ At m v p)
    fun m1 s B E s1 hat hsC hh him hkeep hnew hE hB => by
      rcases cavity_seen (by simpa [corners] using cn) hE s1.consistent s1.tiles hat hB with h | h
      · refine .inl ⟨h, ?_⟩
        rintro ⟨v, hv, hp⟩
        exact h.apart v ((him v).2 hv) (hkeep v p (fun e => hnew (e ▸ hv)) hp)
      · exact .inr ⟨trivial, h⟩
  refine ⟨r, hr, ?_⟩
  rintro m' s rfl
  rcases h with ⟨h, -⟩ | ⟨_, _, h, -, h2, h3⟩
  · cases h
  · cases h
    exact ⟨h3, h2⟩

end Tet
