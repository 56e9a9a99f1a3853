import Verif.Proofs.StarStart
import Verif.Proofs.Recover
import Verif.Proofs.Intersect
import Verif.Proofs.FanWalk

/-!
# Putting a vertex into an edge or triangle
-/

namespace Tet
open Spec Vec4

section
variable {P V T : Type} {m : Mesh P V T}

theorem ring_does (hm : Consistent m) {w : Walker} {a b : VId} (hw : m.edge w = some (a, b)) :
    ∃ l, Settles (m.edgeRing · w) (some l) ∧ l.Nodup ∧ l ≠ [] ∧ ∀ x, x ∈ l ↔ m.edge x = some (a, b) := by
  obtain ⟨c, d, h0⟩ := edge_tet4 hw
  obtain ⟨l, h1, h2, -, -, h4⟩ := C16_edge_ring hm (live_iff.2 ⟨a, b, c, d, h0⟩)
  refine ⟨w :: l, ⟨(w :: l).length + 1, fun n hn => collectRing_eq _ _ h1 n (by omega)⟩, h2, by simp, fun x => ?_⟩
  rw [h4 x, hw]
  constructor
  · exact fun h => h.2
  · intro h
    obtain ⟨c', d', h5⟩ := edge_tet4 h
    exact ⟨live_iff.2 ⟨a, b, c', d', h5⟩, h⟩

theorem assertEdge (hm : Consistent m) {w : Walker} {a b : VId} (hw : m.edge w = some (a, b)) :
    (LockedEdge m a b ∧ m.assertEdgeRemovable w = none) ∨ (¬ LockedEdge m a b ∧ m.assertEdgeRemovable w = some ()) := by
  obtain ⟨e, ue, h1, h2, h3⟩ := hm.edgePtr w a b hw
  cases h : ue.locked with
  | true => exact .inl ⟨⟨e, ue, h2, h3, h⟩, by simp [Mesh.assertEdgeRemovable, h1, h2, h]⟩
  | false =>
    refine .inr ⟨?_, by simp [Mesh.assertEdgeRemovable, h1, h2, h]⟩
    rintro ⟨e', ue', k1, k2, k3⟩
    have := hm.edgeUnique _ _ _ _ h2 k1 (h3.trans k2.symm)
    subst this
    rw [h2] at k1
    cases k1
    rw [h] at k3
    cases k3

theorem assertTri {w : Walker} {t : V3} (hw : m.tri w = some t) :
    (m.triLocked w = some true ∧ m.assertTriRemovable w = none) ∨ (m.triLocked w = some false ∧ m.assertTriRemovable w = some ()) := by
  obtain ⟨x, hx, -⟩ := Mesh.tri_iff.1 hw
  have : ∃ b, m.triLocked w = some b := ⟨_, by rw [Mesh.triLocked, hx]; rfl⟩
  obtain ⟨b, hb⟩ := this
  cases b with
  | true => exact .inl ⟨hb, by simp [Mesh.assertTriRemovable, hb]⟩
  | false => exact .inr ⟨hb, by simp [Mesh.assertTriRemovable, hb]⟩

theorem forM_option {α : Type} (f : α → Option PUnit) (l : List α) :
    ((∃ x ∈ l, f x = none) ∧ forM l f = none) ∨ ((∀ x ∈ l, f x = some ()) ∧ forM l f = some ()) := by
  induction l with
  | nil => exact .inr ⟨by simp, rfl⟩
  | cons x l ih =>
    rw [List.forM_cons]
    cases hx : f x with
    | none => exact .inl ⟨⟨x, by simp, hx⟩, rfl⟩
    | some u =>
      rcases ih with ⟨⟨y, hy, h1⟩, h2⟩ | ⟨h1, h2⟩
      · exact .inl ⟨⟨y, by simp [hy], h1⟩, by simpa using h2⟩
      · refine .inr ⟨?_, by simpa using h2⟩
        intro y hy
        rcases List.mem_cons.1 hy with rfl | hy
        · exact hx
        · exact h1 y hy

/-- Locks do not depend on how a triangle is written. -/
theorem lockedTri_rot (hm : Consistent m) {w w' : Walker} {s t : V3} (h1 : m.tri w = some s) (h2 : m.tri w' = some t) (hr : Rotation s t) :
    m.triLocked w' = m.triLocked w := by
  rcases hm.triUnique w w' s t h1 h2 hr with rfl | rfl | rfl
  · rfl
  · simp [Mesh.triLocked, Walker.nfe, face_nfe]
  · simp [Mesh.triLocked, Walker.pfe, face_pfe]

theorem lockedTri_at (hm : Consistent m) {w : Walker} {t : V3} (h : m.tri w = some t) : LockedTri m t ↔ m.triLocked w = some true := by
  constructor
  · rintro ⟨w', h1, h2⟩
    rw [← h2]
    exact lockedTri_rot hm h1 h (.inl rfl)
  · exact fun h2 => ⟨w, h, h2⟩

theorem lockedTri_turn (hm : Consistent m) {a b c : VId} (h : LockedTri m (a, b, c)) : LockedTri m (b, c, a) := by
  obtain ⟨w, h1, h2⟩ := h
  obtain ⟨d, h3⟩ := tri_tet4 h1
  have h4 := (tet4_parts (tet4_turns h3).2.2.2.2.1).2.2.2
  exact ⟨_, h4, (lockedTri_rot hm h1 h4 (.inr (.inl rfl))).trans h2⟩

theorem lockedTri_flip (hm : Consistent m) {a b c : VId} (h : LockedTri m (a, b, c)) : LockedTri m (b, a, c) := by
  obtain ⟨w, h1, h2⟩ := h
  obtain ⟨d, h3⟩ := tri_tet4 h1
  obtain ⟨w', e, h4, h5⟩ := adj_tet4 hm h3
  exact ⟨w', (tet4_parts h5).2.2.2, (hm.locks w w' h4).trans h2⟩

end

variable {K V T : Type} [Field K] [LinearOrder K] [IsStrictOrderedRing K] {m : Mesh (Pt K) V T}

theorem steinerStart_does (hm : Consistent m) (ht : Tiles m) {g : EdgeOrTri} (hg : Present m g) :
    Does (m.steinerStart · g) fun r => (r = none ∧ (Unsplittable m g ∨ ¬ Findable m g)) ∨
      ∃ B E, r = some (B, E) ∧ ¬ Unsplittable m g ∧ AllAt m (corners g) E ∧ Boundary m E B := by
  cases g with
  | edge e =>
    obtain ⟨a, b⟩ := e
    change HasEdge m a b at hg
    obtain ⟨c, d, x, hx⟩ := hm.toT.hasEdge_tet.1 hg
    obtain ⟨r, ⟨N, hN⟩, hr⟩ := walkerFromEdge_does hm (a, b)
    match r, hr with
    | none, hr =>
      refine ⟨none, ⟨N, fun n hn => by simp [Mesh.steinerStart, hN n hn]⟩, .inl ⟨rfl, .inr ?_⟩⟩
      intro hga
      exact hr ⟨⟨x, (tet4_parts hx).1⟩, hga⟩
    | some none, hr => exact absurd hg (hr (ht.star hm a))
    | some (some w), hw =>
      change m.edge w = some (a, b) at hw
      obtain ⟨l, ⟨N', hN'⟩, h2, h3, h4⟩ := ring_does hm hw
      rcases assertEdge hm hw with ⟨h5, h6⟩ | ⟨h5, h6⟩
      · exact ⟨none, ⟨N, fun n hn => by simp [Mesh.steinerStart, hN n hn, h6]⟩, .inl ⟨rfl, .inl (.inl h5)⟩⟩
      rcases forM_option m.assertTriRemovable l with ⟨⟨y, hy, h7⟩, h8⟩ | ⟨h7, h8⟩
      · refine ⟨none, ⟨max N N', fun n hn => ?_⟩, .inl ⟨rfl, .inl (.inr ?_)⟩⟩
        · simp [Mesh.steinerStart, hN n (by omega), hN' n (by omega), h6, h8]
        · obtain ⟨c', d', h9⟩ := edge_tet4 ((h4 y).1 hy)
          have h10 := (tet4_parts h9).2.2.2
          rcases assertTri h10 with ⟨k1, k2⟩ | ⟨k1, k2⟩
          · exact ⟨c', y, h10, k1⟩
          · rw [h7] at k2; cases k2
      · refine ⟨some (l.flatMap fun w => [w.opp, w.perm P3210], l.map fun w : Walker => w.tet), ⟨max N N', fun n hn => ?_⟩, .inr ⟨_, l.map fun w : Walker => w.tet, rfl, ?_,
          ring_allAt hm h3 h2 h4, ring_boundary hm ht h3 h2 h4⟩⟩
        · simp [Mesh.steinerStart, hN n (by omega), hN' n (by omega), h6, h8]
        · rintro (h | ⟨c', y, k1, k2⟩)
          · exact h5 h
          · have hy := (h4 y).2 (tri_edge k1)
            rcases assertTri k1 with ⟨k3, k4⟩ | ⟨k3, k4⟩
            · rw [h7 y hy] at k4; cases k4
            · rw [k2] at k3; cases k3
  | tri t =>
    obtain ⟨a, b, c⟩ := t
    change HasTri m (a, b, c) at hg
    obtain ⟨x, hx⟩ := hg
    obtain ⟨d, hx4⟩ := tri_tet4 hx
    by_cases hf : Findable m (.tri (a, b, c))
    · obtain ⟨w, N, hN, hw⟩ : ∃ w N, (∀ fuel ≥ N, m.walkerFromTri fuel (a, b, c) = some (some w)) ∧ m.tri w = some (a, b, c) := by
        cases htr : m.trackTriMap with
        | true =>
          obtain ⟨r, h2, h3⟩ := C29_tracked hm htr (a, b, c)
          rcases h3 with ⟨w, rfl, hw⟩ | ⟨-, h⟩
          · exact ⟨w, 0, fun f _ => h2 f, hw⟩
          · exact absurd hx (h x)
        | false =>
          have hga : a ≠ GHOST := by
            rcases hf with h | h
            · exact h
            · rw [htr] at h; cases h
          obtain ⟨r, N, h2, h3⟩ := C33_tri_all hm htr ⟨x, (tet4_parts hx4).1⟩ hga (ht.star hm a) b c
          rcases h3 with ⟨w, rfl, hw⟩ | ⟨-, h⟩
          · exact ⟨w, N, h2, hw⟩
          · exact absurd hx (h x)
      obtain ⟨d', hw4⟩ := tri_tet4 hw
      obtain ⟨o, p, q, r, e, h1, h2, -, h3⟩ := adjAe_tet4 hm.toT hw
      obtain ⟨o', e', h4, h5⟩ := adj_tet4 hm hw4
      have hk : o.tet = o'.tet := (toAdjAe_tet h4 h1).symm
      have hne : w.tet ≠ o.tet := by
        obtain ⟨t, ht, -⟩ := Mesh.tri_iff.1 hw
        obtain ⟨o2, k1, -, -, k2, -⟩ := toAdjAe_live hm.toT (w := w) (by rw [ht]; rfl)
        rw [h1] at k1
        cases k1
        exact fun h => k2 h.symm
      rcases assertTri hw with ⟨k1, k2⟩ | ⟨k1, k2⟩
      · exact ⟨none, ⟨N, fun n hn => by simp [Mesh.steinerStart, hN n hn, h1, k2]⟩, .inl ⟨rfl, .inl ⟨w, hw, k1⟩⟩⟩
      · refine ⟨_, ⟨N, fun n hn => by simp [Mesh.steinerStart, hN n hn, h1, k2]⟩, .inr ⟨_, _, rfl, ?_,
          hk ▸ tri_allAt hm hw (tet4_parts h5).2.2.2 (hk ▸ hne), tri_boundary hm ht hw (tet4_parts h5).2.2.2 hne hk
            (tet4_parts h2).2.2.2 ?_⟩⟩
        · intro h
          rw [(lockedTri_at hm hw).1 h] at k1
          cases k1
        · rcases h3 with h | h | h
          · exact .inl h
          · exact .inr (.inl h)
          · exact .inr (.inr h)
    · simp only [Findable, not_or, not_not] at hf
      have htr : m.trackTriMap = false := by simpa using hf.2
      have hv : m.vertices.get GHOST = none := hm.stored.1.get_max
      refine ⟨none, ⟨0, fun n _ => ?_⟩, .inl ⟨rfl, .inr (by simp [Findable, hf.1, htr])⟩⟩
      simp [Mesh.steinerStart, Mesh.walkerFromTri, htr, hf.1, Mesh.walkersFromVertex, Mesh.walkerFromVertex, hv]

end Tet
