import Verif.Spec.Unlocked
import Verif.Proofs.FlipTris

/-!
# What flips of unlocked elements do
-/

namespace Tet
open Spec
variable {P V T : Type}

theorem Spec.Room.sizes {m : Mesh P V T} (h : Room m) (hm : ConsistentT m) : m.tets.size < idMax ∧ m.edges.size < idMax := by
  obtain ⟨nT, nE, h1, h2, h3, h4⟩ := h
  rw [size_of_numTets hm h1, size_of_numEdges hm h2]
  exact ⟨h3, h4⟩

/-- Locked triangles are locked in every reading, from both sides. -/
theorem ConsistentT.lockedTri_swap {m : Mesh P V T} (hm : ConsistentT m) {a b c : VId} (h : LockedTri m (a, b, c)) :
    LockedTri m (b, a, c) ∧ LockedTri m (b, c, a) := by
  obtain ⟨w, h1, h2⟩ := h
  obtain ⟨t, ht, hl⟩ := Mesh.triLocked_iff.1 h2
  obtain ⟨d, hd⟩ := tri_tet4 h1
  constructor
  · obtain ⟨w', h3, h4⟩ := hm.adj_tri h1
    exact ⟨w', h4, (hm.toSpec.locks w w' h3).trans h2⟩
  · refine ⟨w.nfe, ?_, ?_⟩
    · obtain ⟨t', h3, h4⟩ := Mesh.tri_iff.1 h1
      refine Mesh.tri_iff.2 ⟨t', h3, ?_⟩
      simp only [Tet.tri, Prod.mk.injEq] at h4
      rw [Walker.nfe, t'.tri_nfe, h4.1, h4.2.1, h4.2.2]
    · have : ∀ e, face (nfe e) = face e := by decide
      exact Mesh.triLocked_iff.2 ⟨t, ht, by rw [Walker.nfe, this, hl]⟩

theorem ConsistentT.not_locked {m : Mesh P V T} (hm : ConsistentT m) {a b c : VId} (h : ¬ LockedTri m (a, b, c)) {s : V3}
    (hs : s ∈ [(a, b, c), (b, c, a), (c, a, b), (b, a, c), (a, c, b), (c, b, a)]) : ¬ LockedTri m s := by
  intro hl
  apply h
  have sw : ∀ {a b c}, LockedTri m (a, b, c) → LockedTri m (b, a, c) := fun h => (hm.lockedTri_swap h).1
  have ro : ∀ {a b c}, LockedTri m (a, b, c) → LockedTri m (b, c, a) := fun h => (hm.lockedTri_swap h).2
  simp only [List.mem_cons, List.not_mem_nil, or_false] at hs
  rcases hs with rfl | rfl | rfl | rfl | rfl | rfl
  · exact hl
  · exact ro (ro hl)
  · exact ro hl
  · exact sw hl
  · exact sw (ro (ro hl))
  · exact sw (ro hl)

/-- The two sides of a triangle. -/
theorem ConsistentT.hasTri_swap {m : Mesh P V T} (hm : ConsistentT m) {a b c : VId} (h : HasTri m (a, b, c)) :
    HasTri m (b, a, c) := by
  obtain ⟨w, h1⟩ := h
  obtain ⟨w', -, h4⟩ := hm.adj_tri h1
  exact ⟨w', h4⟩

theorem sameLocks_of {m m' : Mesh P V T} (hk : LocksKept m m') (ht : ∀ s, LockedTri m s → HasTri m' s)
    (he : ∀ a b, LockedEdge m a b → HasEdge m' a b) : SameLocks m m' := by
  constructor
  · intro s
    constructor
    · intro h
      obtain ⟨w, h1, -⟩ := id h
      exact (hk.tri s ⟨w, h1⟩).1 h
    · intro h
      exact (hk.tri s (ht s h)).2 h
  · intro a b
    constructor
    · intro h
      obtain ⟨e, ue, h1, h2, -⟩ := id h
      exact (hk.edge a b ⟨e, ue, h1, h2⟩).1 h
    · intro h
      exact (hk.edge a b (he a b h)).2 h

/-- The pattern of each flip: vertices are numbered; the triangles that disappear are those listed, up to rotation
and side. -/
def six3 {α : Type} (s : α × α × α) : List (α × α × α) :=
  [s, (s.2.1, s.2.2, s.1), (s.2.2, s.1, s.2.1), (s.2.1, s.1, s.2.2), (s.1, s.2.2, s.2.1), (s.2.2, s.2.1, s.1)]

theorem mem_six3 {α β : Type} (v : α → β) {s t : α × α × α} (h : t ∈ six3 s) : vmap3 v t ∈ six3 (vmap3 v s) := by
  obtain ⟨a, b, c⟩ := s
  simp only [six3, List.mem_cons, List.not_mem_nil, or_false] at h ⊢
  rcases h with rfl | rfl | rfl | rfl | rfl | rfl <;> simp [vmap3]

/-- Triangles of `m` that are not in `m'` are among the listed ones. -/
theorem tris_lost {m m' : Mesh P V T} (hm : ConsistentT m) {n : Nat} (v : Fin n → VId)
    (old new : List (Fin n × Fin n × Fin n × Fin n)) (gone : List (Fin n × Fin n × Fin n))
    (hp : ∀ s ∈ faces3 old, s ∈ faces3 new ∨ ∃ g ∈ gone, s ∈ six3 g)
    (h : Replaces m m' (old.map (vmap4 v)) (new.map (vmap4 v))) {s : V3} (hs : HasTri m s) :
    HasTri m' s ∨ ∃ g ∈ gone, s ∈ six3 (vmap3 v g) := by
  rw [h.hasTri hm]
  by_cases ho : s ∈ faces3 (old.map (vmap4 v))
  · have ho' := ho
    rw [faces3_map, List.mem_map] at ho'
    obtain ⟨t, h1, rfl⟩ := ho'
    rcases hp t h1 with h2 | ⟨g, h2, h3⟩
    · left
      right
      rw [faces3_map]
      exact List.mem_map.2 ⟨t, h2, rfl⟩
    · exact .inr ⟨g, h2, mem_six3 v h3⟩
  · exact .inl (.inl ⟨hs, fun h => absurd h ho⟩)

/-- The listed triangles are not in `m'`. -/
theorem tris_gone {m m' : Mesh P V T} (hm : ConsistentT m) {n : Nat} {v : Fin n → VId} (hv : Function.Injective v)
    (old new : List (Fin n × Fin n × Fin n × Fin n))
    (h : Replaces m m' (old.map (vmap4 v)) (new.map (vmap4 v))) {g : Fin n × Fin n × Fin n}
    (hg : g ∈ faces3 old ∧ g ∉ faces3 new) : ¬ HasTri m' (vmap3 v g) := by
  rw [h.hasTri hm]
  have h1 : vmap3 v g ∉ faces3 (new.map (vmap4 v)) := by rw [faces3_map, mem_vmap3 hv]; exact hg.2
  have h2 : vmap3 v g ∈ faces3 (old.map (vmap4 v)) := by rw [faces3_map, mem_vmap3 hv]; exact hg.1
  rintro (⟨-, h3⟩ | h3)
  · exact h1 (h3 h2)
  · exact h1 h3

/-- New triangles are among the listed ones. -/
theorem tris_added {m m' : Mesh P V T} (hm : ConsistentT m) {n : Nat} (v : Fin n → VId)
    (old new : List (Fin n × Fin n × Fin n × Fin n)) (added : List (Fin n × Fin n × Fin n))
    (hp : ∀ s ∈ faces3 new, s ∈ faces3 old ∨ ∃ g ∈ added, s ∈ six3 g)
    (h : Replaces m m' (old.map (vmap4 v)) (new.map (vmap4 v))) {s : V3} (hs : HasTri m' s) :
    HasTri m s ∨ ∃ g ∈ added, s ∈ six3 (vmap3 v g) := by
  rcases (h.hasTri hm s).1 hs with ⟨h1, -⟩ | h1
  · exact .inl h1
  · rw [faces3_map, List.mem_map] at h1
    obtain ⟨t, h1, rfl⟩ := h1
    rcases hp t h1 with h2 | ⟨g, h2, h3⟩
    · left
      obtain ⟨p, h3, c, h4⟩ := mem_faces3.1 h2
      rw [← h4, ← face3_map]
      exact hasTri_of_face3 (h.1 _ (List.mem_map.2 ⟨p, h3, rfl⟩)) c
    · exact .inr ⟨g, h2, mem_six3 v h3⟩

/-- What is known after a flip. -/
structure FlipDone (m m' : Mesh P V T) (old new : List V4) : Prop where
  cons : ConsistentT m'
  rep : Replaces m m' old new
  locks : SameLocks m m'
  verts : SameVertices m m'
  inMesh : ∀ u, InMesh m' u ↔ InMesh m u
  step : FlipStep m m'

theorem hasTri_edge {m : Mesh P V T} (hm : ConsistentT m) {a b c : VId} (h : HasTri m (a, b, c)) : HasEdge m a b := by
  obtain ⟨d, hd⟩ := hasTri_iff.1 h
  exact hm.hasEdge_tet.2 ⟨c, d, hd⟩

theorem flip23_done {m : Mesh P V T} (hm : ConsistentT m) {w o : Walker} {a b c d e : VId}
    (hw : m.tet4 w = some (a, b, c, d)) (ho : m.toAdj w = some o) (hf : m.fourth o = some e)
    (hl : ¬ LockedTri m (a, b, c)) (hno : ¬ (d = e ∨ HasEdge m d e)) (hr : Room m) :
    ∃ m' id2, m.flip23Unchecked w = some (m', [⟨w.tet, 2⟩, ⟨o.tet, 2⟩, ⟨id2, 2⟩]) ∧
      FlipDone m m' [(a, b, c, d), (b, a, c, e)] [(b, a, d, e), (a, c, d, e), (c, b, d, e)] ∧
      (∀ u u', HasEdge m' u u' ↔ HasEdge m u u' ∨ (u, u') = (d, e) ∨ (u, u') = (e, d)) ∧
      ¬ HasTri m' (a, b, c) ∧
      (∀ s, HasTri m s → HasTri m' s ∨ s ∈ six3 (a, b, c)) ∧
      (∀ s, HasTri m' s → HasTri m s ∨ ∃ u ∈ [a, b, c], s ∈ six3 (u, d, e)) ∧
      m'.tet4 ⟨w.tet, 3⟩ = some (b, a, d, e) ∧ m'.tet4 ⟨o.tet, 3⟩ = some (a, c, d, e) ∧
      m'.tet4 ⟨id2, 3⟩ = some (c, b, d, e) := by
  rw [not_or] at hno
  obtain ⟨r1, r2⟩ := hr.sizes hm
  obtain ⟨m', id2, h1, -, -, -, -, F, g0, g1, g2, ⟨eid, h2, h3⟩, h4, h5⟩ := flip23_sem hm hw ho hf hno.1 hno.2 r1 r2
  let v : Fin 5 → VId := ![a, b, c, d, e]
  let old : List (Fin 5 × Fin 5 × Fin 5 × Fin 5) := [(0, 1, 2, 3), (1, 0, 2, 4)]
  let new : List (Fin 5 × Fin 5 × Fin 5 × Fin 5) := [(1, 0, 3, 4), (0, 2, 3, 4), (2, 1, 3, 4)]
  have hrep : Replaces m m' (old.map (vmap4 v)) (new.map (vmap4 v)) := F.rep
  have hed := hasEdge_insert h2 h3
  have hlost : ∀ s, HasTri m s → HasTri m' s ∨ s ∈ six3 (a, b, c) := by
    intro s hs
    rcases tris_lost hm v old new [(0, 1, 2)] (by decide +kernel) hrep hs with h | ⟨g, h, h'⟩
    · exact .inl h
    · simp only [List.mem_singleton] at h
      subst h
      exact .inr h'
  have hv : Function.Injective v := by
    obtain ⟨x1, x2, x3, x4, x5, x6⟩ := hm.ne4 hw
    obtain ⟨w', hw'⟩ := F.rep.1 (b, a, c, e) (by simp)
    obtain ⟨y1, y2, y3, y4, y5, y6⟩ := hm.ne4 hw'
    have : [a, b, c, d, e].Nodup := by
      simp only [List.nodup_cons, List.mem_cons, List.not_mem_nil, or_false, not_or, List.nodup_nil, and_true]
      exact ⟨⟨x1, x2, x3, y5⟩, ⟨x4, x5, y3⟩, ⟨x6, y6⟩, hno.1, not_false⟩
    intro i j hij
    have e : v = fun i => [a, b, c, d, e].get i := by
      funext i
      fin_cases i <;> rfl
    rw [e] at hij
    exact List.nodup_iff_injective_get.1 this hij
  refine ⟨m', id2, h1, ⟨F.cons, F.rep, ?_, C23_vertices hm.stored.2.2 (v := 0) (.inr (.inl h1)), ?_, ?_⟩, hed, ?_, hlost, ?_, g0, g1, g2⟩
  · refine sameLocks_of F.locks ?_ ?_
    · intro s hs
      obtain ⟨x, hx, -⟩ := id hs
      rcases hlost s ⟨x, hx⟩ with h | h
      · exact h
      · exact absurd hs (hm.not_locked hl h)
    · rintro u u' ⟨i, ue, k1, k2, -⟩
      exact (hed u u').2 (.inl ⟨i, ue, k1, k2⟩)
  · refine F.rep.inMesh_same [a, b, c, d, e] ?_ ?_ ?_ ?_ <;> simp [list4]
  · obtain ⟨nT, nE, n1, n2, n3, n4⟩ := hr
    exact .flip23 ho (tet4_parts hw).2.1 hf hno.1 hno.2 n1 n2 n3 n4 h1
  · exact tris_gone hm hv old new hrep (g := (0, 1, 2)) (by decide +kernel)
  · intro s hs
    rcases tris_added hm v old new [(0, 3, 4), (1, 3, 4), (2, 3, 4)] (by decide +kernel) hrep hs with h | ⟨g, h, h'⟩
    · exact .inl h
    · simp only [List.mem_cons, List.not_mem_nil, or_false] at h
      rcases h with rfl | rfl | rfl
      · exact .inr ⟨a, by simp, h'⟩
      · exact .inr ⟨b, by simp, h'⟩
      · exact .inr ⟨c, by simp, h'⟩

theorem flip32_done {m : Mesh P V T} (hm : ConsistentT m) {w o1 o2 : Walker} {x y c d e : VId}
    (hw : m.tet4 w = some (x, y, c, d)) (s1 : m.ringStep w = some o1) (s2 : m.ringStep o1 = some o2)
    (s3 : m.ringStep o2 = some w) (hf : m.fourth o1 = some e) (hle : ¬ LockedEdge m x y)
    (hlt : ∀ u ∈ [c, d, e], ¬ LockedTri m (x, y, u)) (hno : ¬ HasTri m (d, c, e)) :
    ∃ m', m.flip32Unchecked w = some (m', [⟨w.tet, 10⟩, ⟨o1.tet, 10⟩]) ∧
      FlipDone m m' [(x, y, c, d), (x, y, d, e), (x, y, e, c)] [(d, c, e, x), (c, d, e, y)] ∧
      (∀ u u', HasEdge m' u u' ↔ HasEdge m u u' ∧ (u, u') ≠ (x, y) ∧ (u, u') ≠ (y, x)) ∧
      (∀ s, HasTri m s → HasTri m' s ∨ ∃ u ∈ [c, d, e], s ∈ six3 (x, y, u)) ∧
      (∀ s, HasTri m' s → HasTri m s ∨ s ∈ six3 (c, d, e)) ∧
      m'.tet4 ⟨w.tet, 3⟩ = some (d, c, e, x) ∧ m'.tet4 ⟨o1.tet, 3⟩ = some (c, d, e, y) := by
  obtain ⟨m', h1, -, -, -, -, -, F, g0, g1, -, ⟨e0, ue0, h2, h3, h4⟩, h5, h6⟩ := flip32_sem hm hw s1 s2 s3 hf hno
  let v : Fin 5 → VId := ![x, y, c, d, e]
  let old : List (Fin 5 × Fin 5 × Fin 5 × Fin 5) := [(0, 1, 2, 3), (0, 1, 3, 4), (0, 1, 4, 2)]
  let new : List (Fin 5 × Fin 5 × Fin 5 × Fin 5) := [(3, 2, 4, 0), (2, 3, 4, 1)]
  have hrep : Replaces m m' (old.map (vmap4 v)) (new.map (vmap4 v)) := F.rep
  have hed := hasEdge_remove hm.eunique h2 h3 h4
  have hlost : ∀ s, HasTri m s → HasTri m' s ∨ ∃ u ∈ [c, d, e], s ∈ six3 (x, y, u) := by
    intro s hs
    rcases tris_lost hm v old new [(0, 1, 2), (0, 1, 3), (0, 1, 4)] (by decide +kernel) hrep hs with h | ⟨g, h, h'⟩
    · exact .inl h
    · simp only [List.mem_cons, List.not_mem_nil, or_false] at h
      rcases h with rfl | rfl | rfl
      · exact .inr ⟨c, by simp, h'⟩
      · exact .inr ⟨d, by simp, h'⟩
      · exact .inr ⟨e, by simp, h'⟩
  refine ⟨m', h1, ⟨F.cons, F.rep, ?_, C23_vertices hm.stored.2.2 (v := 0) (.inr (.inr (.inl h1))), ?_,
    .flip32 hw s1 s2 s3 hf hno h1⟩, hed, hlost, ?_, g0, g1⟩
  · refine sameLocks_of F.locks ?_ ?_
    · intro s hs
      obtain ⟨z, hz, -⟩ := id hs
      rcases hlost s ⟨z, hz⟩ with h | ⟨u, hu, h⟩
      · exact h
      · exact absurd hs (hm.not_locked (hlt u hu) h)
    · rintro u u' hu
      obtain ⟨i, ue, k1, k2, k3⟩ := id hu
      refine (hed u u').2 ⟨⟨i, ue, k1, k2⟩, ?_, ?_⟩
      · intro h
        cases h
        exact hle hu
      · intro h
        cases h
        exact hle ⟨i, ue, k1, by rw [k2, min_comm, max_comm], k3⟩
  · refine F.rep.inMesh_same [x, y, c, d, e] ?_ ?_ ?_ ?_ <;> simp [list4]
  · intro s hs
    rcases tris_added hm v old new [(2, 3, 4)] (by decide +kernel) hrep hs with h | ⟨g, h, h'⟩
    · exact .inl h
    · simp only [List.mem_singleton] at h
      subst h
      exact .inr h'

theorem flip44_done {m : Mesh P V T} (hm : ConsistentT m) {w a1 a2 a3 : Walker} {x y p q r s : VId}
    (hw : m.tet4 w = some (x, y, p, q)) (s1 : m.ringStep w = some a1) (s2 : m.ringStep a1 = some a2)
    (s3 : m.ringStep a2 = some a3) (s4 : m.ringStep a3 = some w) (hne : a2 ≠ w)
    (f1 : m.fourth a1 = some r) (f2 : m.fourth a2 = some s) (hle : ¬ LockedEdge m x y)
    (hlt : ∀ u ∈ [p, q, r, s], ¬ LockedTri m (x, y, u)) (hno : ¬ HasEdge m p r) (hr : Room m) :
    ∃ m' ws, m.flip44Unchecked w = some (m', ws) ∧
      FlipDone m m' [(x, y, p, q), (x, y, q, r), (x, y, r, s), (x, y, s, p)]
        [(r, p, q, y), (r, p, y, s), (r, p, s, x), (r, p, x, q)] ∧
      (∀ u u', HasEdge m' u u' ↔ (HasEdge m u u' ∧ (u, u') ≠ (x, y) ∧ (u, u') ≠ (y, x)) ∨
        (u, u') = (p, r) ∨ (u, u') = (r, p)) ∧
      (∀ t, HasTri m t → HasTri m' t ∨ ∃ u ∈ [p, q, r, s], t ∈ six3 (x, y, u)) ∧
      (∀ t, HasTri m' t → HasTri m t ∨ ∃ u ∈ [x, y, q, s], t ∈ six3 (p, r, u)) := by
  obtain ⟨nT, nE, n1, n2, n3, n4⟩ := id hr
  obtain ⟨r1, r2⟩ := hr.sizes hm
  obtain ⟨m', id2, h1, -, -, F, -⟩ := flip44_sem hm hw s1 s2 s3 s4 hne f1 f2 hno r1 r2
  obtain ⟨m1, _, _, _, _, h2, -, -, hed, -⟩ := C22_flip44 hm.toSpec hw s1 s2 s3 s4 hne f1 f2 hno n1 n2 n3 n4
  rw [h1] at h2
  obtain ⟨rfl, -⟩ := Prod.mk.inj (Option.some.inj h2)
  let v : Fin 6 → VId := ![x, y, p, q, r, s]
  let old : List (Fin 6 × Fin 6 × Fin 6 × Fin 6) := [(0, 1, 2, 3), (0, 1, 3, 4), (0, 1, 4, 5), (0, 1, 5, 2)]
  let new : List (Fin 6 × Fin 6 × Fin 6 × Fin 6) := [(4, 2, 3, 1), (4, 2, 1, 5), (4, 2, 5, 0), (4, 2, 0, 3)]
  have hrep : Replaces m m' (old.map (vmap4 v)) (new.map (vmap4 v)) := F.rep
  have hlost : ∀ t, HasTri m t → HasTri m' t ∨ ∃ u ∈ [p, q, r, s], t ∈ six3 (x, y, u) := by
    intro t ht
    rcases tris_lost hm v old new [(0, 1, 2), (0, 1, 3), (0, 1, 4), (0, 1, 5)] (by decide +kernel) hrep ht with h | ⟨g, h, h'⟩
    · exact .inl h
    · simp only [List.mem_cons, List.not_mem_nil, or_false] at h
      rcases h with rfl | rfl | rfl | rfl
      · exact .inr ⟨p, by simp, h'⟩
      · exact .inr ⟨q, by simp, h'⟩
      · exact .inr ⟨r, by simp, h'⟩
      · exact .inr ⟨s, by simp, h'⟩
  refine ⟨m', _, h1, ⟨F.cons, F.rep, ?_, C23_vertices hm.stored.2.2 (v := 0) (.inr (.inr (.inr h1))), ?_,
    .flip44 hw s1 s2 s3 s4 hne f1 f2 hno n1 n2 n3 n4 h1⟩, hed, hlost, ?_⟩
  · refine sameLocks_of F.locks ?_ ?_
    · intro t ht
      obtain ⟨z, hz, -⟩ := id ht
      rcases hlost t ⟨z, hz⟩ with h | ⟨u, hu, h⟩
      · exact h
      · exact absurd ht (hm.not_locked (hlt u hu) h)
    · rintro u u' hu
      obtain ⟨i, ue, k1, k2, k3⟩ := id hu
      refine (hed u u').2 (.inl ⟨⟨i, ue, k1, k2⟩, ?_, ?_⟩)
      · intro h
        cases h
        exact hle hu
      · intro h
        cases h
        exact hle ⟨i, ue, k1, by rw [k2, min_comm, max_comm], k3⟩
  · refine F.rep.inMesh_same [x, y, p, q, r, s] ?_ ?_ ?_ ?_ <;> simp [list4]
  · intro t ht
    rcases tris_added hm v old new [(2, 4, 0), (2, 4, 1), (2, 4, 3), (2, 4, 5)] (by decide +kernel) hrep ht with h | ⟨g, h, h'⟩
    · exact .inl h
    · simp only [List.mem_cons, List.not_mem_nil, or_false] at h
      rcases h with rfl | rfl | rfl | rfl
      · exact .inr ⟨x, by simp, h'⟩
      · exact .inr ⟨y, by simp, h'⟩
      · exact .inr ⟨q, by simp, h'⟩
      · exact .inr ⟨s, by simp, h'⟩

/-- Every flip of an unlocked element works, if the new edge or triangle does not exist yet. -/
theorem Spec.FlipAt.done {m : Mesh P V T} (hm : ConsistentT m) {old new taken r} (h : FlipAt m old new taken r)
    (hn : ¬ taken) (hr : Room m) : ∃ m' ws, r = some (m', ws) ∧ FlipDone m m' old new := by
  cases h with
  | flip23 tet adj beyond tri =>
    obtain ⟨m', i, h1, h2, -⟩ := flip23_done hm tet adj beyond tri hn hr
    exact ⟨m', _, h1, h2⟩
  | flip32 tet s1 s2 s3 third edge tris =>
    obtain ⟨m', h1, h2, -⟩ := flip32_done hm tet s1 s2 s3 third edge tris hn
    exact ⟨m', _, h1, h2⟩
  | flip44 tet s1 s2 s3 s4 ne third fourth edge tris =>
    obtain ⟨m', ws, h1, h2, -⟩ := flip44_done hm tet s1 s2 s3 s4 ne third fourth edge tris hn hr
    exact ⟨m', _, h1, h2⟩

theorem Spec.Flips.done {m m' : Mesh P V T} (hm : ConsistentT m) {old new} (h : Flips m m' old new) :
    FlipDone m m' old new := by
  obtain ⟨taken, ws, h1, h2, h3⟩ := h
  obtain ⟨m1, ws1, h4, h5⟩ := h1.done hm h2 h3
  obtain ⟨rfl, -⟩ := Prod.mk.inj (Option.some.inj h4)
  exact h5

end Tet
