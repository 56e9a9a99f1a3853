import Verif.Proofs.Walker

/-!
# C07–C12: vertex keys and walkers
-/

namespace Tet
open Spec

/-! ## C07 -/

/-- Two directed edges have the same undirected key iff they are equal or reversed. -/
theorem C07_edge_key (e e' : VId × VId) :
    sorted2 e = sorted2 e' ↔ e' = (e.1, e.2) ∨ e' = (e.2, e.1) :=
  sorted2_eq_iff e e'

example : sorted2 (GHOST, 3) = sorted2 (3, GHOST) ∧ sorted2 (1, 2) ≠ sorted2 (1, 3) := by decide

/-- For three different vertices: same oriented-triangle key iff rotation of each other. -/
theorem C07_tri_key (s t : V3) (h : (list3 s).Nodup) :
    triKey s = triKey t ↔ Rotation s t := by
  constructor
  · intro he
    exact Rotation.trans (triKey_rotation s) (he ▸ Rotation.symm (triKey_rotation t))
  · intro hr
    refine (triKey_of_rotation ?_ hr).symm
    simp [list3] at h
    exact ⟨h.1.1, h.2, fun he => h.1.2 he.symm⟩

example : (list3 (5, 2, GHOST)).Nodup ∧ triKey (5, 2, GHOST) = triKey (GHOST, 5, 2) := by decide

/-- The two sides of a triangle have different keys. -/
theorem C07_sides_differ (a b c : VId) (h : a ≠ b ∧ b ≠ c ∧ c ≠ a) :
    triKey (a, b, c) ≠ triKey (b, a, c) := by
  intro he
  have hn : (list3 (a, b, c)).Nodup := by
    simp only [list3, List.nodup_cons, List.mem_cons, List.not_mem_nil, or_false, not_or,
      not_false_eq_true, List.nodup_nil, and_true]
    exact ⟨⟨h.1, fun he => h.2.2 he.symm⟩, h.2.1⟩
  have := (C07_tri_key _ _ hn).1 he
  simp only [Rotation, Prod.mk.injEq] at this
  omega

example : (4, 7, 1).1 ≠ (4, 7, 1).2.1 ∧ triKey (4, 7, 1) = (1, 4, 7) ∧ triKey (7, 4, 1) = (1, 7, 4) := by
  decide

/-- The unordered triangle key identifies exactly the triples with the same vertices. -/
theorem C07_unordered_tri_key (s t : V3) :
    sorted3 s = sorted3 t ↔ (list3 s).Perm (list3 t) := by
  have hp : ∀ x : V3, (list3 x).Perm (list3 (sorted3 x)) := by
    rintro ⟨a, b, c⟩
    simp only [sorted3, list3]
    split_ifs <;> first
      | exact List.Perm.refl _
      | (simp only [List.perm_iff_count, List.count_cons, List.count_nil]; intro z; omega)
  have hs : ∀ x : V3, (sorted3 x).1 ≤ (sorted3 x).2.1 ∧ (sorted3 x).2.1 ≤ (sorted3 x).2.2 := by
    rintro ⟨a, b, c⟩
    simp only [sorted3]
    split_ifs <;> simp_all <;> omega
  constructor
  · intro h
    exact (hp s).trans (h ▸ (hp t).symm)
  · intro h
    have hst := ((hp s).symm.trans h).trans (hp t)
    have hs1 := hs s
    have hs2 := hs t
    have e := hst.eq_of_pairwise' (r := (· ≤ ·)) (by simp [list3]; omega) (by simp [list3]; omega)
    simp only [list3, List.cons.injEq, and_true] at e
    exact Prod.ext e.1 (Prod.ext e.2.1 e.2.2)

example : sorted3 (9, 4, 4) = sorted3 (4, 9, 4) ∧ sorted3 (9, 4, 4) ≠ sorted3 (9, 9, 4) := by decide

/-! ## C08 -/

/-- The key of a tet is an even reordering of its vertices. -/
theorem C08_key_is_even_reordering (x : V4) : EvenRearr (quad x) (quad (evenSorted4 x)) :=
  evenSorted4_even x

/-- Two quadruples of different vertices have the same key iff one is an even reordering of
the other. -/
theorem C08_key_canonical (x y : V4) (h : Function.Injective (quad x)) :
    evenSorted4 x = evenSorted4 y ↔ EvenRearr (quad x) (quad y) :=
  evenSorted4_eq_iff x y h

example : Function.Injective (quad (7, 3, GHOST, 0)) ∧
    evenSorted4 (7, 3, GHOST, 0) = (0, 3, 7, GHOST) ∧
    evenSorted4 (3, 7, GHOST, 0) = (0, 3, GHOST, 7) := by decide

/-! ## C09–C12 -/

variable {P V T : Type}

/-- On a live tet, a walker lists the four vertices of the tet in an order which is an even
reordering of the stored order. -/
theorem C09_even_reordering (m : Mesh P V T) (w : Walker) (t : Tet T)
    (h : m.tets.get w.tet = some t) :
    ∃ q, m.tet4 w = some q ∧ EvenRearr t.vertices (quad q) := by
  refine ⟨t.tet w.edge, by simp [Mesh.tet4, h], ?_⟩
  rw [evenRearr_iff]
  exact ⟨w.edge, t.quad_tet w.edge⟩

/-- The other accessors are sub-tuples of the four vertices. -/
theorem C09_accessors (m : Mesh P V T) (w : Walker) (a b c d : VId)
    (h : m.tet4 w = some (a, b, c, d)) :
    m.first w = some a ∧ m.second w = some b ∧ m.third w = some c ∧ m.fourth w = some d ∧
    m.edge w = some (a, b) ∧ m.oppEdge w = some (c, d) ∧
    m.tri w = some (a, b, c) ∧ m.oppTri w = some (d, c, b) := by
  simp only [Mesh.tet4, Option.map_eq_some_iff] at h
  obtain ⟨t, ht, h⟩ := h
  simp only [Tet.tet, Prod.mk.injEq] at h
  obtain ⟨h1, h2, h3, h4⟩ := h
  simp [Mesh.first, Mesh.second, Mesh.third, Mesh.fourth, Mesh.edge, Mesh.oppEdge, Mesh.tri,
    Mesh.oppTri, ht, Tet.edge, Tet.oppEdge, Tet.tri, Tet.oppTri, h1, h2, h3, h4]

/-- A mesh with a single stored tet, for the examples below. -/
def oneTet : Mesh Unit Unit Unit where
  vertices := .empty
  ghostFlags := {}
  edges := .empty
  tets := IdMap.fromValues [⟨![10, 20, 30, GHOST], fun _ => ⟨0, 3⟩, ![0, 1, 2, 3, 4, 5], {}, ()⟩]
  triMap := fun _ => none
  trackTriMap := false
  center := ()
  defaultTet := ()

example : oneTet.tet4 ⟨0, 5⟩ = some (GHOST, 10, 30, 20) := by decide

/-- Every reorienting move shows the old vertices in the documented order and stays on the
same tet. -/
theorem C10_moves (m : Mesh P V T) (w : Walker) (a b c d : VId)
    (h : m.tet4 w = some (a, b, c, d)) :
    m.tet4 w.nfe = some (b, c, a, d) ∧ m.tet4 w.pfe = some (c, a, b, d) ∧
    m.tet4 w.nve = some (a, c, d, b) ∧ m.tet4 w.pve = some (a, d, b, c) ∧
    m.tet4 w.twin = some (b, a, d, c) ∧ m.tet4 w.opp = some (c, d, a, b) ∧
    w.nfe.tet = w.tet ∧ w.pfe.tet = w.tet ∧ w.nve.tet = w.tet ∧ w.pve.tet = w.tet ∧
    w.twin.tet = w.tet ∧ w.opp.tet = w.tet := by
  have hw := walker_moves w
  refine ⟨?_, ?_, ?_, ?_, ?_, ?_, rfl, rfl, rfl, rfl, rfl, rfl⟩
  · rw [hw.1]; exact tet4_perm h _
  · rw [hw.2.1]; exact tet4_perm h _
  · rw [hw.2.2.1]; exact tet4_perm h _
  · rw [hw.2.2.2.1]; exact tet4_perm h _
  · rw [hw.2.2.2.2.1]; exact tet4_perm h _
  · rw [hw.2.2.2.2.2]; exact tet4_perm h _

/-- `to_perm(_ijkl)` shows the old vertices in the order `i, j, k, l`, for all twelve variants. -/
theorem C10_to_perm (m : Mesh P V T) (w : Walker) (a b c d : VId)
    (h : m.tet4 w = some (a, b, c, d)) :
    m.tet4 (w.perm P3210) = some (d, c, b, a) ∧ m.tet4 (w.perm P2301) = some (c, d, a, b) ∧
    m.tet4 (w.perm P1032) = some (b, a, d, c) ∧ m.tet4 (w.perm P0123) = some (a, b, c, d) ∧
    m.tet4 (w.perm P2130) = some (c, b, d, a) ∧ m.tet4 (w.perm P3021) = some (d, a, c, b) ∧
    m.tet4 (w.perm P0312) = some (a, d, b, c) ∧ m.tet4 (w.perm P1203) = some (b, c, a, d) ∧
    m.tet4 (w.perm P1320) = some (b, d, c, a) ∧ m.tet4 (w.perm P0231) = some (a, c, d, b) ∧
    m.tet4 (w.perm P3102) = some (d, b, a, c) ∧ m.tet4 (w.perm P2013) = some (c, a, b, d) ∧
    ∀ p, (w.perm p).tet = w.tet := by
  exact ⟨tet4_perm h _, tet4_perm h _, tet4_perm h _, tet4_perm h _, tet4_perm h _, tet4_perm h _,
    tet4_perm h _, tet4_perm h _, tet4_perm h _, tet4_perm h _, tet4_perm h _, tet4_perm h _,
    fun _ => rfl⟩

example : oneTet.tet4 ⟨0, 3⟩ = some (10, 20, 30, GHOST) ∧
    oneTet.tet4 (Walker.perm ⟨0, 3⟩ P3021) = some (GHOST, 10, 30, 20) := by decide

/-- Inverses and orders of the moves. -/
theorem C11_inverses (w : Walker) :
    w.nfe.pfe = w ∧ w.pfe.nfe = w ∧ w.nve.pve = w ∧ w.pve.nve = w ∧
    w.nfe.nfe.nfe = w ∧ w.nve.nve.nve = w ∧ w.twin.twin = w ∧ w.opp.opp = w ∧
    w.perm P0123 = w := by
  obtain ⟨k, e⟩ := w
  simp only [Walker.nfe, Walker.pfe, Walker.nve, Walker.pve, Walker.twin, Walker.opp, Walker.perm,
    Walker.mk.injEq, true_and]
  revert e
  decide

/-- The named moves are permutations, and permutations compose like permutations: doing `p`
and then `q` shows position `j` of the result at the place `p (q j)` of the start. -/
theorem C11_composition (w : Walker) (p q : Perm) :
    (∃ r, (w.perm p).perm q = w.perm r ∧ ∀ j, perms r j = perms p (perms q j)) ∧
    w.nfe = w.perm P1203 ∧ w.pfe = w.perm P2013 ∧ w.nve = w.perm P0231 ∧ w.pve = w.perm P0312 ∧
    w.twin = w.perm P1032 ∧ w.opp = w.perm P2301 := by
  obtain ⟨k, e⟩ := w
  refine ⟨⟨toPerm p q, ?_, perms_toPerm p q⟩, ?_⟩
  · simp [Walker.perm, toPerm_assoc]
  · exact walker_moves _

/-- Any two walkers on one tet are related by exactly one permutation. -/
theorem C11_simply_transitive (w w' : Walker) (h : w.tet = w'.tet) : ∃! p, w.perm p = w' := by
  obtain ⟨k, e⟩ := w
  obtain ⟨k', e'⟩ := w'
  simp only at h
  subst h
  refine ⟨permInv e e', ?_, ?_⟩
  · simp [Walker.perm, toPerm_permInv]
  · intro p hp
    simp only [Walker.perm, Walker.mk.injEq, true_and] at hp
    rw [← hp, permInv_toPerm]

/-- A permutation is determined by the vertices it shows: on a tet with four different
vertices, exactly one walker shows a given even reordering. -/
theorem C11_unique_walker (m : Mesh P V T) (k : TId) (t : Tet T) (h : m.tets.get k = some t)
    (hd : Function.Injective t.vertices) (q : V4) (hq : EvenRearr t.vertices (quad q)) :
    ∃! w : Walker, w.tet = k ∧ m.tet4 w = some q := by
  obtain ⟨e, he⟩ := (evenRearr_iff _ _).1 hq
  refine ⟨⟨k, e⟩, ⟨rfl, ?_⟩, ?_⟩
  · simp only [Mesh.tet4, h, Option.map_some, Option.some.injEq]
    exact quad_inj fun j => by rw [Tet.quad_tet, he]
  · rintro ⟨k', e'⟩ ⟨hk, hw⟩
    simp only at hk
    subst hk
    simp only [Mesh.tet4, h, Option.map_some, Option.some.injEq] at hw
    congr 1
    refine perms_inj _ _ fun j => hd ?_
    rw [← Tet.quad_tet, hw, he]

example : oneTet.tets.get 0 ≠ none ∧ oneTet.tet4 (Walker.mk 0 8) = some (20, GHOST, 30, 10) ∧
    (Walker.mk 0 3).perm P1320 = Walker.mk 0 8 := by decide

/-- On a tet with four different vertices two walkers address the same undirected edge slot
iff they have the same endpoints, in either direction. -/
theorem C12_slots (t : Tet T) (hd : Function.Injective t.vertices) (e e' : Code) :
    undirIdx e = undirIdx e' ↔
      t.edge e' = ((t.edge e).1, (t.edge e).2) ∨ t.edge e' = ((t.edge e).2, (t.edge e).1) := by
  have : ∀ e e', undirIdx e = undirIdx e' ↔
      (firstIdx e' = firstIdx e ∧ secondIdx e' = secondIdx e) ∨
      (firstIdx e' = secondIdx e ∧ secondIdx e' = firstIdx e) := by decide
  rw [this]
  simp only [Tet.edge, Tet.first, Tet.second, Prod.mk.injEq, hd.eq_iff]

/-- `to_undir_edge` hits each of the six slots, and `undir_edges` of a walker lists the slots
in the same order relative to the walker. -/
theorem C12_slot_walkers (t : Tet T) (e : Code) :
    (∀ i, undirIdx (toUndirEdge i) = i) ∧
    ∀ i, t.undirEdges e i = t.undirEdge (toPerm e (toUndirEdge i)) := by
  refine ⟨by decide, ?_⟩
  have h : ∀ e, undirIdx (opp e) = undirIdx (toPerm e 0) ∧ undirIdx e = undirIdx (toPerm e 3) ∧
      undirIdx (nfe e) = undirIdx (toPerm e 7) ∧ undirIdx (pve e) = undirIdx (toPerm e 5) ∧
      undirIdx (pfe e) = undirIdx (toPerm e 11) := by decide
  obtain ⟨h0, h1, h2, h3, h5⟩ := h e
  intro i
  fin_cases i <;> simp [Tet.undirEdges, Tet.undirEdge, toUndirEdge, h0, ← h1, h2, h3, h5, P1320]

example : undirIdx 9 = undirIdx 11 ∧
    (⟨![10, 20, 30, 40], fun _ => ⟨0, 3⟩, ![0, 1, 2, 3, 4, 5], {}, ()⟩ : Tet Unit).edge 9 = (10, 30) ∧
    (⟨![10, 20, 30, 40], fun _ => ⟨0, 3⟩, ![0, 1, 2, 3, 4, 5], {}, ()⟩ : Tet Unit).edge 11 = (30, 10) := by
  decide

end Tet
