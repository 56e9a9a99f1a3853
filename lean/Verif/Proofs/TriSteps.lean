import Verif.Proofs.SteinerPath
import Verif.Proofs.TrisInter
import Verif.Proofs.General
import Verif.Proofs.TriRegion

/-!
# The steps of recovering a triangle with Steiner points
-/

namespace Tet
open Spec Vec4

/-- If there is a result for enough fuel, it is as expected. -/
def GivesOnly {α : Type} (f : Nat → Option α) (Q : Nat → α → Prop) : Prop := ∃ N, ∀ n ≥ N, ∀ x, f n = some x → Q n x

theorem GivesOnly.mono {α : Type} {f : Nat → Option α} {Q R : Nat → α → Prop} (h : GivesOnly f Q) (hr : ∀ n x, Q n x → R n x) : GivesOnly f R := by
  obtain ⟨N, hN⟩ := h
  exact ⟨N, fun n hn x hx => hr n x (hN n hn x hx)⟩

theorem GivesOnly.congr {α : Type} {f g : Nat → Option α} {Q : Nat → α → Prop} (h : GivesOnly f Q) (he : ∀ n, g n = f n) : GivesOnly g Q := by
  obtain ⟨N, hN⟩ := h
  exact ⟨N, fun n hn x hx => hN n hn x ((he n).symm.trans hx)⟩

theorem GivesOnly.bind {α β : Type} {f : Nat → Option α} {g : Nat → α → Option β} {r : Option α} {Q : Nat → β → Prop} (h : Settles f r)
    (hg : ∀ a, r = some a → GivesOnly (g · a) fun n x => f n = some a → Q n x) : GivesOnly (fun n => (f n).bind (g n)) Q := by
  obtain ⟨N, hN⟩ := h
  cases r with
  | none => exact ⟨N, fun n hn x hx => by simp [hN n hn] at hx⟩
  | some a =>
    obtain ⟨N', h'⟩ := hg a rfl
    refine ⟨max N N', fun n hn x hx => h' n (by omega) x ?_ (hN n (by omega))⟩
    simpa [hN n (by omega)] using hx

theorem settles_same {α : Type} {f : Nat → α} {r r' : α} (h : Settles f r) (h' : Settles f r') : r = r' := by
  obtain ⟨N, hN⟩ := h
  obtain ⟨N', hN'⟩ := h'
  exact (hN (max N N') (le_max_left _ _)).symm.trans (hN' (max N N') (le_max_right _ _))

section
variable {P V T : Type} {m m' : Mesh P V T}

theorem hasEdge_of_locked {a b : VId} (h : LockedEdge m a b) : HasEdge m a b := by
  obtain ⟨i, ue, h1, h2, -⟩ := h
  exact ⟨i, ue, h1, h2⟩

/-- All edges of a locked triangle are locked. -/
theorem Spec.FullLocks.all (hf : FullLocks m) (hm : Consistent m) {a b c : VId} (h : LockedTri m (a, b, c)) :
    LockedEdge m a b ∧ LockedEdge m b c ∧ LockedEdge m c a :=
  ⟨hf a b c h, hf b c a (lockedTri_turn hm h), hf c a b (lockedTri_turn hm (lockedTri_turn hm h))⟩

/-- With locked edges at locked triangles, both ways of asserting are the same. -/
theorem triSteinerStart_eq (hm : Consistent m) (hf : FullLocks m) (e : VId × VId) :
    ∃ N, ∀ n ≥ N, m.triSteinerStart n e = m.steinerStart n (.edge e) := by
  obtain ⟨a, b⟩ := e
  obtain ⟨r, ⟨N, hN⟩, hr⟩ := walkerFromEdge_does hm (a, b)
  match r, hr with
  | none, _ => exact ⟨N, fun n hn => by simp [Mesh.triSteinerStart, Mesh.steinerStart, hN n hn]⟩
  | some none, _ => exact ⟨N, fun n hn => by simp [Mesh.triSteinerStart, Mesh.steinerStart, hN n hn]⟩
  | some (some w), hw =>
    change m.edge w = some (a, b) at hw
    obtain ⟨l, ⟨N', hN'⟩, -, -, h4⟩ := ring_does hm hw
    rcases assertEdge hm hw with ⟨-, h6⟩ | ⟨h5, h6⟩
    · exact ⟨N, fun n hn => by simp [Mesh.triSteinerStart, Mesh.steinerStart, hN n hn, h6]⟩
    have k1 : forM l m.assertEdgeRemovable = some () := by
      rcases forM_option m.assertEdgeRemovable l with ⟨⟨y, hy, h7⟩, -⟩ | ⟨-, h8⟩
      · rcases assertEdge hm ((h4 y).1 hy) with ⟨k, -⟩ | ⟨-, k⟩
        · exact absurd k h5
        · rw [h7] at k; cases k
      · exact h8
    have k2 : forM l m.assertTriRemovable = some () := by
      rcases forM_option m.assertTriRemovable l with ⟨⟨y, hy, h7⟩, -⟩ | ⟨-, h8⟩
      · obtain ⟨c', d', h9⟩ := edge_tet4 ((h4 y).1 hy)
        have h10 := (tet4_parts h9).2.2.2
        rcases assertTri h10 with ⟨k, -⟩ | ⟨-, k⟩
        · exact absurd (hf a b c' ⟨y, h10, k⟩) h5
        · rw [h7] at k; cases k
      · exact h8
    exact ⟨max N N', fun n hn => by simp [Mesh.triSteinerStart, Mesh.steinerStart, hN n (by omega), hN' n (by omega), h6, k1, k2]⟩

end

variable {K V T : Type} [Field K] [LinearOrder K] [IsStrictOrderedRing K] {m m' m1 : Mesh (Pt K) V T}

theorem insertTriSteiner_does (hs : Sound m) (hf : FullLocks m) {e : VId × VId} (p : Pt K) {v0 : VId} {x0 : Vertex (Pt K) V}
    (h0 : m.vertices.get v0 = some x0) (hg : HasEdge m e.1 e.2) :
    Does (m.insertTriSteiner · v0 e p) fun r => ∀ m' s, r = some (m', s) → Split m m' (.edge e) s p x0.value ∧ ¬ ∃ v, InMesh m v ∧ At m v p := by
  obtain ⟨r, ⟨N, hN⟩, hq⟩ := insert_edge hs hg p h0
  rcases hins : m.vertices.insert (Vertex.new invalidWalker p x0.value) with _ | ⟨vs, s⟩
  · exact ⟨none, ⟨0, fun n _ => by
      simp only [Mesh.insertTriSteiner, h0, hins, Option.bind_eq_bind, Option.bind_some, Option.bind_none]⟩, by simp⟩
  obtain ⟨s1, -⟩ := hs.addVertex hins
  obtain ⟨N', h'⟩ := triSteinerStart_eq s1.consistent (show FullLocks { m with vertices := vs } from hf) e
  refine ⟨r, ⟨max N N', fun n hn => ?_⟩, hq⟩
  rw [← hN n (by omega)]
  simp only [Mesh.insertTriSteiner, Mesh.insertSteiner, h0, hins, Option.bind_eq_bind, Option.bind_some, h' n (by omega)]

/-! ### Locking a piece -/

omit [LinearOrder K] [IsStrictOrderedRing K] in
theorem payload_of_same (h : SameVertices m m') (v : VId) :
    (m'.vertices.get v).map (fun y => (y.position, y.value)) = (m.vertices.get v).map fun y => (y.position, y.value) := by
  have := congrArg (Option.map fun y : Pt K × V × _ => (y.1, y.2.1)) (h.1 v)
  simpa [Option.map_map, Function.comp_def] using this

theorem lockTri_sound (hs : Sound m) {w : Walker} {a b c : VId} (hw : m.tri w = some (a, b, c)) :
    ∃ m', m.lockTriAt w = some m' ∧ Sound m' ∧ SameVertices m m' ∧ (∀ q, HasTet m' q ↔ HasTet m q) ∧ (∀ x, m'.tri x = m.tri x) ∧
      NewLocks m m' [] [(a, b, c)] ∧ LockedTri m' (a, b, c) := by
  obtain ⟨m', h1, h2, h3, h4, h5, h6, -⟩ := lockTriAt_ok hs.consistent.toT hw
  have hmod : ∀ {m m' : Mesh (Pt K) V T} {k : TId} {i : Fin 4}, m.modTet k (·.setLocked i) = some m' →
      (Tidy m → Tidy m') ∧ (Unmarked m → Unmarked m') ∧ ∀ x, m'.tri x = m.tri x := by
    intro m m' k i h
    unfold Mesh.modTet at h
    split_ifs at h
    cases h
    have get : ∀ j t', (m.tets.modify k fun t => t.setLocked i).get j = some t' → ∃ t, m.tets.get j = some t ∧ (t' = t ∨ t' = t.setLocked i) := by
      intro j t' h
      rw [IdMap.get_modify] at h
      split_ifs at h with hj
      · obtain ⟨t, h1, rfl⟩ := Option.map_eq_some_iff.1 h
        exact ⟨t, h1, .inr rfl⟩
      · exact ⟨t', h, .inl rfl⟩
    refine ⟨fun ht => ⟨?_, ht.edges, ht.vertices, ht.ghost⟩, fun hu => ?_, fun x => ?_⟩
    · intro j t' h
      obtain ⟨t, h1, rfl | rfl⟩ := get j t' h
      · exact ht.tets _ _ h1
      · have := ht.tets _ _ h1
        exact this
    · intro j t' h
      obtain ⟨t, h1, rfl | rfl⟩ := get j t' h
      · exact hu _ _ h1
      · have := hu _ _ h1
        exact this
    · simp only [Mesh.tri, IdMap.get_modify]
      split_ifs
      · rw [Option.map_map]
        rfl
      · rfl
  have hall : Tidy m' ∧ Unmarked m' ∧ ∀ x, m'.tri x = m.tri x := by
    simp only [Mesh.lockTriAt, Option.bind_eq_bind] at h1
    obtain ⟨m1, e1, h1⟩ := Option.bind_eq_some_iff.1 h1
    obtain ⟨w', -, e2⟩ := Option.bind_eq_some_iff.1 h1
    obtain ⟨a1, a2, a3⟩ := hmod e1
    obtain ⟨b1, b2, b3⟩ := hmod e2
    exact ⟨b1 (a1 hs.tidy), b2 (a2 hs.unmarked), fun x => (b3 x).trans (a3 x)⟩
  exact ⟨m', h1, ⟨h2, hs.tiles.of_same hs.consistent.toT h2.toT h3 h4, hall.1, hall.2.1⟩, h3, h4, hall.2.2, h5, h6⟩

theorem lockEdge_sound (hs : Sound m) {w : Walker} {a b : VId} (hw : m.edge w = some (a, b)) :
    ∃ m', m.lockEdgeAt w = some m' ∧ Sound m' ∧ SameVertices m m' ∧ (∀ q, HasTet m' q ↔ HasTet m q) ∧ (∀ x, m'.tri x = m.tri x) ∧
      NewLocks m m' [(a, b)] [] ∧ LockedEdge m' a b := by
  obtain ⟨m', h1, h2, h3, h4, h5, h6⟩ := lockEdgeAt_ok hs.consistent.toT hw
  have hlock : ∃ e, m' = { m with edges := m.edges.modify e fun ue => { ue with locked := true } } := by
    simp only [Mesh.lockEdgeAt, Option.bind_eq_bind] at h1
    obtain ⟨e, -, h1⟩ := Option.bind_eq_some_iff.1 h1
    split_ifs at h1
    cases h1
    exact ⟨e, rfl⟩
  refine ⟨m', h1, ⟨h2, hs.tiles.of_same hs.consistent.toT h2.toT h3 h4, ?_, ?_⟩, h3, h4, ?_, h5, h6⟩
  · obtain ⟨e, rfl⟩ := hlock
    refine ⟨hs.tidy.tets, ?_, hs.tidy.vertices, hs.tidy.ghost⟩
    intro e' ue he
    simp only [IdMap.get_modify] at he
    split_ifs at he with hee
    · obtain ⟨ue', h7, rfl⟩ := Option.map_eq_some_iff.1 he
      have := hs.tidy.edges _ _ h7
      exact this
    · exact hs.tidy.edges _ _ he
  · obtain ⟨e, rfl⟩ := hlock
    exact hs.unmarked
  · obtain ⟨e, rfl⟩ := hlock
    exact fun _ => rfl

omit [Field K] [LinearOrder K] [IsStrictOrderedRing K] in
theorem NewLocks.trans' {m1 m2 m3 : Mesh (Pt K) V T} {es es' : List (VId × VId)} {ts ts' : List V3} (h : NewLocks m1 m2 es ts)
    (h' : NewLocks m2 m3 es' ts') : NewLocks m1 m3 (es ++ es') (ts ++ ts') := by
  refine ⟨fun s k => h'.triKept s (h.triKept s k), fun a b k => h'.edgeKept a b (h.edgeKept a b k), fun s k => ?_, fun a b k => ?_⟩
  · rcases h'.tri s k with k | ⟨t, h1, h2⟩
    · rcases h.tri s k with k | ⟨t, h1, h2⟩
      · exact .inl k
      · exact .inr ⟨t, List.mem_append_left _ h1, h2⟩
    · exact .inr ⟨t, List.mem_append_right _ h1, h2⟩
  · rcases h'.edge a b k with k | k
    · rcases h.edge a b k with k | k
      · exact .inl k
      · exact .inr (k.imp (List.mem_append_left _) (List.mem_append_left _))
    · exact .inr (k.imp (List.mem_append_right _) (List.mem_append_right _))

omit [Field K] [LinearOrder K] [IsStrictOrderedRing K] in
theorem tri_turn {w : Walker} {a b c : VId} (h : m.tri w = some (a, b, c)) : m.tri w.nfe = some (b, c, a) ∧ m.tri w.pfe = some (c, a, b) := by
  obtain ⟨t, h1, h2⟩ := Mesh.tri_iff.1 h
  simp only [Tet.tri, Prod.mk.injEq] at h2
  obtain ⟨rfl, rfl, rfl⟩ := h2
  exact ⟨Mesh.tri_iff.2 ⟨t, h1, t.tri_nfe _⟩, Mesh.tri_iff.2 ⟨t, h1, t.tri_pfe _⟩⟩

/-- A locked triangle is locked whatever the order of its vertices. -/
theorem lockedTri_three (hm : Consistent m) {a b c : VId} (h : LockedTri m (a, b, c)) {s : V3} (hs : SameThree s (a, b, c)) : LockedTri m s := by
  obtain ⟨x, y, z⟩ := s
  have h1 := lockedTri_turn hm h
  have h2 := lockedTri_turn hm h1
  have h3 := sameThree_six3.1 (show SameThree (a, b, c) (x, y, z) from hs.symm)
  simp only [six3, List.mem_cons, List.not_mem_nil, or_false, Prod.mk.injEq] at h3
  rcases h3 with ⟨rfl, rfl, rfl⟩ | ⟨rfl, rfl, rfl⟩ | ⟨rfl, rfl, rfl⟩ | ⟨rfl, rfl, rfl⟩ | ⟨rfl, rfl, rfl⟩ | ⟨rfl, rfl, rfl⟩ <;>
    first
    | assumption
    | exact lockedTri_flip hm h
    | exact lockedTri_flip hm h1
    | exact lockedTri_flip hm h2

/-- What locking a piece and its edges does. -/
theorem lockPiece_ok (hs : Sound m) {w : Walker} {a b c : VId} (hw : m.tri w = some (a, b, c)) :
    ∃ m', m.lockPiece w = some m' ∧ Sound m' ∧ SameVertices m m' ∧ (∀ v, InMesh m' v ↔ InMesh m v) ∧ (∀ x, m'.tri x = m.tri x) ∧
      (∀ s, LockedTri m' s ↔ LockedTri m s ∨ SameThree s (a, b, c)) ∧
      ∀ x y, LockedEdge m' x y ↔ LockedEdge m x y ∨ (x, y) ∈ triEdges (a, b, c) ∨ (y, x) ∈ triEdges (a, b, c) := by
  obtain ⟨m1, e1, s1, v1, t1, r1, l1, k1⟩ := lockTri_sound hs hw
  have w1 : m1.tri w = some (a, b, c) := (r1 w).trans hw
  obtain ⟨m2, e2, s2, v2, t2, r2, l2, k2⟩ := lockEdge_sound s1 (tri_edge w1)
  have w2 : m2.tri w = some (a, b, c) := (r2 w).trans w1
  obtain ⟨m3, e3, s3, v3, t3, r3, l3, k3⟩ := lockEdge_sound s2 (tri_edge (tri_turn w2).1)
  have w3 : m3.tri w = some (a, b, c) := (r3 w).trans w2
  obtain ⟨m4, e4, s4, v4, t4, r4, l4, k4⟩ := lockEdge_sound s3 (tri_edge (tri_turn w3).2)
  have l := ((NewLocks.trans' l1 l2).trans' l3).trans' l4
  simp only [List.nil_append, List.cons_append, List.append_nil] at l
  have hl : LockedTri m4 (a, b, c) := l4.triKept _ (l3.triKept _ (l2.triKept _ k1))
  refine ⟨m4, ?_, s4, SameVertices.trans' (SameVertices.trans' (SameVertices.trans' v1 v2) v3) v4,
    fun v => locks_inMesh hs.consistent.toT s4.consistent.toT (fun q => (t4 q).trans ((t3 q).trans ((t2 q).trans (t1 q)))) v,
    fun x => (r4 x).trans ((r3 x).trans ((r2 x).trans (r1 x))), fun s => ⟨fun h => ?_, ?_⟩, fun x y => ⟨fun h => ?_, ?_⟩⟩
  · simp only [Mesh.lockPiece, e1, e2, e3, e4, Option.bind_eq_bind, Option.bind_some]
  · rcases l.tri s h with h | ⟨t, ht, h⟩
    · exact .inl h
    · rw [List.mem_singleton.1 ht] at h
      exact .inr h
  · rintro (h | h)
    · exact l.triKept s h
    · exact lockedTri_three s4.consistent hl h
  · rcases l.edge x y h with h | h | h
    · exact .inl h
    · exact .inr (.inl h)
    · exact .inr (.inr h)
  · have q1 := l4.edgeKept _ _ (l3.edgeKept _ _ k2)
    have q2 := l4.edgeKept _ _ k3
    have key : ∀ x y, (x, y) ∈ triEdges (a, b, c) → LockedEdge m4 x y := by
      intro x y h
      simp only [triEdges, List.mem_cons, List.not_mem_nil, or_false, Prod.mk.injEq] at h
      rcases h with ⟨rfl, rfl⟩ | ⟨rfl, rfl⟩ | ⟨rfl, rfl⟩
      · exact q1
      · exact q2
      · exact k4
    rintro (h | h | h)
    · exact l.edgeKept x y h
    · exact key x y h
    · exact lockedEdge_comm (key y x h)

/-! ### Intersection points -/

theorem triPoint_in (p0 p1 p2 : Pt K) {b : K × K × K} {b3 b4 : K} (hw : Mesh.weakSign [b.1, b.2.1, b.2.2, b3, b4] = true) :
    InClosedTri p0 p1 p2 (triPoint p0 p1 p2 b) := by
  obtain ⟨b0, b1, b2⟩ := b
  simp only [Mesh.weakSign, List.all_cons, List.all_nil, Bool.and_true, Bool.or_eq_true, Bool.and_eq_true, decide_eq_true_eq] at hw
  by_cases hz : b0 + b1 + b2 = 0
  · refine ⟨1, 0, 0, by simp, le_rfl, le_rfl, by simp, ?_⟩
    simp [comb, triPoint, hz, Pt.smul, Pt.add]
  · have hq : 0 ≤ b0 / (b0 + b1 + b2) ∧ 0 ≤ b1 / (b0 + b1 + b2) ∧ 0 ≤ b2 / (b0 + b1 + b2) := by
      rcases hw with ⟨h0, h1, h2, -⟩ | ⟨h0, h1, h2, -⟩
      · exact ⟨div_nonneg h0 (by linarith), div_nonneg h1 (by linarith), div_nonneg h2 (by linarith)⟩
      · exact ⟨div_nonneg_of_nonpos h0 (by linarith), div_nonneg_of_nonpos h1 (by linarith), div_nonneg_of_nonpos h2 (by linarith)⟩
    refine ⟨_, _, _, hq.1, hq.2.1, hq.2.2, by rw [← add_div, ← add_div, div_self hz], ?_⟩
    simp only [comb, triPoint, Pt.smul, Pt.add, Pt.mk.injEq]
    refine ⟨?_, ?_, ?_⟩ <;> field_simp <;> ring

/-- The points are in the triangles, as far as the model divides by zero. -/
theorem trisPoints_in (hs : Sound m) {tris : List V3} (hp : SolidTris m tris) {s : VId × VId} (he : HasEdge m s.1 s.2) (hg : s.1 ≠ GHOST) :
    ∃ l, Settles (fun fuel => m.trisPoints fuel tris s) (some l) ∧ ∀ x ∈ l, HasEdge m x.1.1 x.1.2 ∧
      ∃ t ∈ tris, ∃ p0 p1 p2, At m t.1 p0 ∧ At m t.2.1 p1 ∧ At m t.2.2 p2 ∧ InClosedTri p0 p1 p2 x.2 := by
  have hp' : AllPlaced m tris := fun t h => by
    have := (hp t h).2
    obtain ⟨p0, h0⟩ := this t.1 (by simp)
    obtain ⟨p1, h1⟩ := this t.2.1 (by simp)
    obtain ⟨p2, h2⟩ := this t.2.2 (by simp)
    exact ⟨placed_of_At h0, placed_of_At h1, placed_of_At h2⟩
  obtain ⟨_, hl, l, rfl, hh, -⟩ := trisIntersections_does hs.consistent hp' he hg (hs.tiles.star hs.consistent s.1)
  obtain ⟨_, hr, r, rfl, -⟩ := trisPoints_does hs.consistent hs.tiles hp he hg
  refine ⟨r, hr, fun x hx => ?_⟩
  have hmap : l.mapM (fun i : TriInter K × V3 => do
      let p0 ← m.idx i.2.1
      let p1 ← m.idx i.2.2.1
      let p2 ← m.idx i.2.2.2
      return (i.1.edge, triPoint p0 p1 p2 i.1.bary)) = some r := by
    obtain ⟨N, hN⟩ := hl
    obtain ⟨N', hN'⟩ := hr
    have := hN' (max N N') (le_max_right _ _)
    simp only [Mesh.trisPoints, hN (max N N') (le_max_left _ _), Option.bind_eq_bind, Option.bind_some] at this
    exact this
  obtain ⟨i, hi, hix⟩ : ∃ i ∈ l, (do
      let p0 ← m.idx i.2.1
      let p1 ← m.idx i.2.2.1
      let p2 ← m.idx i.2.2.2
      return (i.1.edge, triPoint p0 p1 p2 i.1.bary)) = some x := by
    clear hl hh hr
    induction l generalizing r with
    | nil =>
      simp only [List.mapM_nil, Option.pure_def, Option.some.injEq] at hmap
      subst hmap
      cases hx
    | cons i l ih =>
      rw [List.mapM_cons, Option.bind_eq_bind] at hmap
      obtain ⟨y, h1, hmap⟩ := Option.bind_eq_some_iff.1 hmap
      rw [Option.bind_eq_bind] at hmap
      obtain ⟨r', h2, hmap⟩ := Option.bind_eq_some_iff.1 hmap
      cases hmap
      rcases List.mem_cons.1 hx with rfl | hx
      · exact ⟨i, List.mem_cons_self, h1⟩
      · obtain ⟨j, hj, h3⟩ := ih r' hx h2
        exact ⟨j, List.mem_cons_of_mem _ hj, h3⟩
  obtain ⟨he, hti, b3, b4, -, hw⟩ := hh i hi
  have := (hp _ hti).2
  obtain ⟨p0, h0⟩ := this i.2.1 (by simp)
  obtain ⟨p1, h1⟩ := this i.2.2.1 (by simp)
  obtain ⟨p2, h2⟩ := this i.2.2.2 (by simp)
  simp only [idx_of_At h0, idx_of_At h1, idx_of_At h2] at hix
  cases hix
  exact ⟨he, i.2, hti, p0, p1, p2, h0, h1, h2, triPoint_in p0 p1 p2 hw⟩

end Tet
