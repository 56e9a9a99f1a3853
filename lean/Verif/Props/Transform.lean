import Verif.Props.Points
import Verif.Proofs.CapMain
import Verif.Proofs.HullFill

/-!
# C88, C89: the cap and shell transforms; C90: the hull and filling space
-/

namespace Tet
open Spec
variable {P V T : Type}

/-- C88: `cap_transform` on a consistent mesh with its map of triangles.  The side vertices are a path from `a` over `l` to `b`, the
tets between the path and the edge from `vt` to `vb` are in the mesh, the triangles fill the polygon, and none of their sides
inside the polygon is an edge yet.  If the triangles under the path and at the ends are not locked, then the transform does not panic, the mesh
stays consistent and exactly the tets of the path are replaced by the tet at `a`, `b`, `vt`, `vb` and those over and under the triangles.
`Transformed` says what happens to the locks. -/
theorem C88_cap {m : Mesh P V T} (hm : Consistent m) (htr : m.trackTriMap = true) {vt vb a b : VId} {l : List VId} {tris : List V3}
    (hnd : (vt :: vb :: a :: (l ++ [b])).Nodup) (hgh : GHOST ∉ vt :: vb :: a :: (l ++ [b])) (hfill : Fills a l b tris)
    (hfan : ∀ p ∈ fanTets vt vb (pathEdges a l b), HasTet m p)
    (hside : ∀ e ∈ triSides tris, e ∈ pathEdges a l b ∨ ¬ HasEdge m e.1 e.2)
    (hbot : ∀ e ∈ pathEdges a l b, ¬ LockedTri m (e.1, e.2, vb)) (ha : ¬ LockedTri m (a, vt, vb)) (hb : ¬ LockedTri m (b, vt, vb))
    (room : m.tets.size + tris.length ≤ idMax) (eroom : m.edges.size + 12 * tris.length + 6 ≤ idMax) (fuel : Nat) :
    ∃ m', m.capTransform fuel (a :: (l ++ [b])) vt vb tris = some m' ∧ Consistent m' ∧
      Transformed m m' (fanTets vt vb (pathEdges a l b)) ((a, b, vt, vb) :: coneTets vt vb tris) tris vt (a :: (l ++ [b])) := by
  obtain ⟨m', h1, -, h2, h3⟩ := cap_main hm htr hnd hgh hfill hfan hside room eroom fuel
  have h4 := h2.2 ⟨hbot, ha, hb⟩
  exact ⟨m', h1, h4, h3 h4⟩

/-- C88: the condition about locked triangles is what the transform needs.  It replaces the tets in any case.  `insert_tet` does not copy locks, so
a lock under the path or at one of its ends stays on the tet outside only, and the mesh is not consistent any more. -/
theorem C88_locks {m : Mesh P V T} (hm : Consistent m) (htr : m.trackTriMap = true) {vt vb a b : VId} {l : List VId} {tris : List V3}
    (hnd : (vt :: vb :: a :: (l ++ [b])).Nodup) (hgh : GHOST ∉ vt :: vb :: a :: (l ++ [b])) (hfill : Fills a l b tris)
    (hfan : ∀ p ∈ fanTets vt vb (pathEdges a l b), HasTet m p)
    (hside : ∀ e ∈ triSides tris, e ∈ pathEdges a l b ∨ ¬ HasEdge m e.1 e.2)
    (room : m.tets.size + tris.length ≤ idMax) (eroom : m.edges.size + 12 * tris.length + 6 ≤ idMax) (fuel : Nat) :
    ∃ m', m.capTransform fuel (a :: (l ++ [b])) vt vb tris = some m' ∧
      Replaces m m' (fanTets vt vb (pathEdges a l b)) ((a, b, vt, vb) :: coneTets vt vb tris) ∧
      (Consistent m' ↔ (∀ e ∈ pathEdges a l b, ¬ LockedTri m (e.1, e.2, vb)) ∧ ¬ LockedTri m (a, vt, vb) ∧ ¬ LockedTri m (b, vt, vb)) :=
  (cap_main hm htr hnd hgh hfill hfan hside room eroom fuel).imp fun _ h => ⟨h.1, h.2.1, h.2.2.1⟩

/-- C89: `shell_transform`, where the path is closed.  The edge from `vt` to `vb` goes away with its tets; the triangles must not be in the mesh yet. -/
theorem C89_shell {m : Mesh P V T} (hm : Consistent m) (htr : m.trackTriMap = true) {vt vb a b : VId} {l : List VId} {tris : List V3} (hl : l ≠ [])
    (hnd : (vt :: vb :: a :: (l ++ [b])).Nodup) (hgh : GHOST ∉ vt :: vb :: a :: (l ++ [b])) (hfill : Fills a l b tris)
    (hfan : ∀ p ∈ fanTets vt vb (pathEdges a l b ++ [(b, a)]), HasTet m p)
    (hside : ∀ e ∈ triSides tris, e ∈ pathEdges a l b ++ [(b, a)] ∨ ¬ HasEdge m e.1 e.2) (hno : ∀ r ∈ tris, ¬ HasTri m r)
    (hbot : ∀ e ∈ pathEdges a l b ++ [(b, a)], ¬ LockedTri m (e.1, e.2, vb))
    (room : m.tets.size + tris.length ≤ idMax) (eroom : m.edges.size + 12 * tris.length ≤ idMax) (fuel : Nat) :
    ∃ m', m.shellTransform fuel (a :: (l ++ [b])) vt vb tris = some m' ∧ Consistent m' ∧
      Transformed m m' (fanTets vt vb (pathEdges a l b ++ [(b, a)])) (coneTets vt vb tris) tris vt (vb :: a :: (l ++ [b])) ∧ ¬ HasEdge m' vt vb := by
  obtain ⟨m', h1, -, h2, h3⟩ := shell_main hm htr hl hnd hgh hfill hfan hside hno room eroom fuel
  have h4 := h2.2 hbot
  exact ⟨m', h1, h4, h3 h4⟩

/-- C89: here too the mesh stays consistent exactly if no triangle under the path is locked. -/
theorem C89_locks {m : Mesh P V T} (hm : Consistent m) (htr : m.trackTriMap = true) {vt vb a b : VId} {l : List VId} {tris : List V3} (hl : l ≠ [])
    (hnd : (vt :: vb :: a :: (l ++ [b])).Nodup) (hgh : GHOST ∉ vt :: vb :: a :: (l ++ [b])) (hfill : Fills a l b tris)
    (hfan : ∀ p ∈ fanTets vt vb (pathEdges a l b ++ [(b, a)]), HasTet m p)
    (hside : ∀ e ∈ triSides tris, e ∈ pathEdges a l b ++ [(b, a)] ∨ ¬ HasEdge m e.1 e.2) (hno : ∀ r ∈ tris, ¬ HasTri m r)
    (room : m.tets.size + tris.length ≤ idMax) (eroom : m.edges.size + 12 * tris.length ≤ idMax) (fuel : Nat) :
    ∃ m', m.shellTransform fuel (a :: (l ++ [b])) vt vb tris = some m' ∧
      Replaces m m' (fanTets vt vb (pathEdges a l b ++ [(b, a)])) (coneTets vt vb tris) ∧
      (Consistent m' ↔ ∀ e ∈ pathEdges a l b ++ [(b, a)], ¬ LockedTri m (e.1, e.2, vb)) :=
  (shell_main hm htr hl hnd hgh hfill hfan hside hno room eroom fuel).imp fun _ h => ⟨h.1, h.2.1, h.2.2.1⟩

/-! ### Filling space -/

section
variable {K : Type} [Field K] [LinearOrder K] [IsStrictOrderedRing K]

/-- C90: two consistent meshes with the same points and the same tets at the ghost vertex.  If one of them fills space and all tets of the other
one are positively oriented, then the other one fills space, too. -/
theorem C90_hull {m m' : Mesh (Pt K) V T} (hm : Consistent m) (hm' : Consistent m') (hpos : ∀ v, m'.idx v = m.idx v) (hc : m'.center = m.center)
    (hgh : ∀ a b c d, GHOST ∈ [a, b, c, d] → (HasTet m' (a, b, c, d) ↔ HasTet m (a, b, c, d))) (ht : Tiles m) (hp : AllPositive m') : Tiles m' :=
  hull_tiles hm hm' (funext fun v => by rw [homv, homv, hpos, hc]) hgh ht hp

theorem Spec.Transformed.tiles {m m' : Mesh (Pt K) V T} {old new : List V4} {tris : List V3} {vt : VId} {off : List VId}
    (h : Transformed m m' old new tris vt off) (hm : Consistent m) (hm' : Consistent m')
    (ho : ∀ q ∈ old ++ new, GHOST ∉ [q.1, q.2.1, q.2.2.1, q.2.2.2]) (hn : ∀ q ∈ new, Mesh.positive m q = true) (ht : Tiles m) : Tiles m' := by
  refine h.replaces.tiles hm hm' (funext fun v => ?_) ho hn ht
  have h1 : m'.idx v = m.idx v := by
    have := congrArg (Option.map (·.2.1)) (h.points v)
    rw [Option.map_map, Option.map_map] at this
    exact this
  rw [homv, homv, h1, h.center]

theorem coneTets_solid {vt vb : VId} {c : List VId} {tris : List V3} (hc : ∀ r ∈ tris, ∀ v ∈ list3 r, v ∈ c) (hg : GHOST ∉ vt :: vb :: c) :
    ∀ q ∈ coneTets vt vb tris, GHOST ∉ [q.1, q.2.1, q.2.2.1, q.2.2.2] := by
  intro q hq
  obtain ⟨r, h1, h2⟩ := mem_cones.1 hq
  have h3 := hc r h1
  simp only [List.mem_cons, not_or] at hg
  have h4 : ∀ v ∈ list3 r, GHOST ≠ v := fun v hv h => hg.2.2 (h ▸ h3 v hv)
  simp only [list3, List.mem_cons, List.not_mem_nil, or_false, forall_eq_or_imp, forall_eq] at h4
  rcases h2 with rfl | rfl <;> simp only [List.mem_cons, List.not_mem_nil, or_false, not_or]
  · exact ⟨h4.2.1, h4.1, h4.2.2, hg.1⟩
  · exact ⟨h4.1, h4.2.1, h4.2.2, hg.2.1⟩

theorem fanTets_solid {vt vb : VId} {c : List VId} {F : List (VId × VId)} (hc : ∀ e ∈ F, e.1 ∈ c ∧ e.2 ∈ c) (hg : GHOST ∉ vt :: vb :: c) :
    ∀ q ∈ fanTets vt vb F, GHOST ∉ [q.1, q.2.1, q.2.2.1, q.2.2.2] := by
  intro q hq
  obtain ⟨e, h1, rfl⟩ := mem_fan.1 hq
  simp only [List.mem_cons, not_or] at hg
  simp only [fanTet, List.mem_cons, List.not_mem_nil, or_false, not_or]
  exact ⟨fun h => hg.2.2 (h ▸ (hc e h1).2), hg.1, fun h => hg.2.2 (h ▸ (hc e h1).1), hg.2.1⟩

/-- C88: if the mesh fills space and the new tets are positively oriented, the result fills space. -/
theorem C88_fills {m m' : Mesh (Pt K) V T} (hm : Consistent m) (htr : m.trackTriMap = true) {vt vb a b : VId} {l : List VId} {tris : List V3}
    (hnd : (vt :: vb :: a :: (l ++ [b])).Nodup) (hgh : GHOST ∉ vt :: vb :: a :: (l ++ [b])) (hfill : Fills a l b tris)
    (hfan : ∀ p ∈ fanTets vt vb (pathEdges a l b), HasTet m p)
    (hside : ∀ e ∈ triSides tris, e ∈ pathEdges a l b ∨ ¬ HasEdge m e.1 e.2)
    (hbot : ∀ e ∈ pathEdges a l b, ¬ LockedTri m (e.1, e.2, vb)) (ha : ¬ LockedTri m (a, vt, vb)) (hb : ¬ LockedTri m (b, vt, vb))
    (room : m.tets.size + tris.length ≤ idMax) (eroom : m.edges.size + 12 * tris.length + 6 ≤ idMax) (fuel : Nat)
    (ht : Tiles m) (hnew : ∀ q ∈ (a, b, vt, vb) :: coneTets vt vb tris, Mesh.positive m q = true)
    (h : m.capTransform fuel (a :: (l ++ [b])) vt vb tris = some m') : Tiles m' := by
  obtain ⟨m1, h1, h2, h3⟩ := C88_cap hm htr hnd hgh hfill hfan hside hbot ha hb room eroom fuel
  obtain rfl := Option.some.inj (h1.symm.trans h)
  have hnd' : (a :: (l ++ [b])).Nodup := (List.nodup_cons.1 (List.nodup_cons.1 hnd).2).2
  obtain ⟨s, -, -, pt, -, -⟩ := fills_pieces hfill hnd'
  refine h3.tiles hm h2 (fun q hq => ?_) hnew ht
  rcases List.mem_append.1 hq with hq | hq
  · exact fanTets_solid (fun e he => mem_path he) hgh q hq
  · rcases List.mem_cons.1 hq with rfl | hq
    · simp only [List.mem_cons, List.mem_append, List.not_mem_nil, or_false, not_or] at hgh ⊢
      tauto
    · exact coneTets_solid pt.corner hgh q hq

/-- C89: the same for `shell_transform`. -/
theorem C89_fills {m m' : Mesh (Pt K) V T} (hm : Consistent m) (htr : m.trackTriMap = true) {vt vb a b : VId} {l : List VId} {tris : List V3} (hl : l ≠ [])
    (hnd : (vt :: vb :: a :: (l ++ [b])).Nodup) (hgh : GHOST ∉ vt :: vb :: a :: (l ++ [b])) (hfill : Fills a l b tris)
    (hfan : ∀ p ∈ fanTets vt vb (pathEdges a l b ++ [(b, a)]), HasTet m p)
    (hside : ∀ e ∈ triSides tris, e ∈ pathEdges a l b ++ [(b, a)] ∨ ¬ HasEdge m e.1 e.2) (hno : ∀ r ∈ tris, ¬ HasTri m r)
    (hbot : ∀ e ∈ pathEdges a l b ++ [(b, a)], ¬ LockedTri m (e.1, e.2, vb))
    (room : m.tets.size + tris.length ≤ idMax) (eroom : m.edges.size + 12 * tris.length ≤ idMax) (fuel : Nat)
    (ht : Tiles m) (hnew : ∀ q ∈ coneTets vt vb tris, Mesh.positive m q = true)
    (h : m.shellTransform fuel (a :: (l ++ [b])) vt vb tris = some m') : Tiles m' := by
  obtain ⟨m1, h1, h2, h3, -⟩ := C89_shell hm htr hl hnd hgh hfill hfan hside hno hbot room eroom fuel
  obtain rfl := Option.some.inj (h1.symm.trans h)
  have hnd' : (a :: (l ++ [b])).Nodup := (List.nodup_cons.1 (List.nodup_cons.1 hnd).2).2
  obtain ⟨s, -, -, pt, -, -⟩ := fills_pieces hfill hnd'
  refine h3.tiles hm h2 (fun q hq => ?_) hnew ht
  rcases List.mem_append.1 hq with hq | hq
  · refine fanTets_solid (fun e he => ?_) hgh q hq
    rcases List.mem_append.1 he with he | he
    · exact mem_path he
    · rw [List.mem_singleton] at he
      subst he
      simp
  · exact coneTets_solid pt.corner hgh q hq

end

/-! ### Examples -/

/-- The triangle is not locked. -/
def noLock (m : Mesh P V T) (s : V3) : Bool :=
  m.tets.keys.all fun k => (m.tets.get k).all fun t => decide (∀ c, t.tri c = s → t.flags.locked (face c) = false)

theorem locked_of_check {m : Mesh P V T} {s : V3} (h : noLock m s = true) : ¬ LockedTri m s := by
  unfold noLock at h
  intro hl
  obtain ⟨j, e, t, h1, h2, h3⟩ := locked_at.1 hl
  rw [List.all_eq_true] at h
  have h4 := h j (IdMap.mem_keys.2 (Option.isSome_iff_exists.2 ⟨t, h1⟩))
  rw [h1, Option.all_some, decide_eq_true_iff] at h4
  rw [h4 e h2] at h3
  cases h3

/-- `ratA` after a cap transform. -/
def ratCap : Option (Mesh (Pt ℚ) Nat Unit) := ratA.bind fun m => m.capTransform 0 [4, 3, 0] 1 2 [(3, 0, 4)]

/-- The hypotheses of `C88_cap` hold in `ratA`; two tets are replaced by three, as in a 2-to-3 flip, and the new triangle is locked. -/
theorem ratCap_ok : ∃ m m', ratA = some m ∧ ratCap = some m' ∧ Consistent m' ∧
    Transformed m m' [(3, 1, 4, 2), (0, 1, 3, 2)] [(4, 0, 1, 2), (0, 3, 4, 1), (3, 0, 4, 2)] [(3, 0, 4)] 1 [4, 3, 0] := by
  obtain ⟨m, h1, h2, h3⟩ := ratA_ok
  have hS := ratA_shows h1
  obtain ⟨m', e, c, t⟩ := C88_cap h2 h3 (vt := 1) (vb := 2) (a := 4) (l := [3]) (b := 0) (tris := [(3, 0, 4)]) (by decide) (by decide)
    ⟨[(4, 3, 0)], [(4, 3, 0)], .split (l₁ := []) (l₂ := []) (.side 4 3) (.side 3 0), .refl _, .cons (.inr (.inl rfl)) .nil⟩
    (by
      intro p hp
      simp only [fanTets, pathEdges, List.map_cons, List.map_nil, List.mem_cons, List.not_mem_nil, or_false] at hp
      rcases hp with rfl | rfl
      · exact (hS _).2 (by decide +kernel)
      · exact (hS _).2 (by decide +kernel))
    (by
      have := edge_of_check (of_map (f := fun m => noEdge m 0 4) (b := true) h1 (by decide +kernel))
      intro e he
      simp only [triSides, List.flatMap_cons, List.flatMap_nil, List.append_nil, List.mem_cons, List.not_mem_nil, or_false] at he
      rcases he with rfl | rfl | rfl
      · exact .inl (by simp [pathEdges])
      · exact .inr this
      · exact .inl (by simp [pathEdges]))
    (by
      intro e he
      simp only [pathEdges, List.mem_cons, List.not_mem_nil, or_false] at he
      rcases he with rfl | rfl
      · exact locked_of_check (of_map (f := fun m => noLock m (4, 3, 2)) (b := true) h1 (by decide +kernel))
      · exact locked_of_check (of_map (f := fun m => noLock m (3, 0, 2)) (b := true) h1 (by decide +kernel)))
    (locked_of_check (of_map (f := fun m => noLock m (4, 1, 2)) (b := true) h1 (by decide +kernel)))
    (locked_of_check (of_map (f := fun m => noLock m (0, 1, 2)) (b := true) h1 (by decide +kernel)))
    (of_decide_eq_true (of_map (f := fun m => decide (m.tets.size + 1 ≤ idMax)) (b := true) h1 (by decide +kernel)))
    (of_decide_eq_true (of_map (f := fun m => decide (m.edges.size + 12 * 1 + 6 ≤ idMax)) (b := true) h1 (by decide +kernel))) 0
  exact ⟨m, m', h1, by rw [ratCap, h1]; exact e, c, t⟩

/-- The new tets of this example are positively oriented and the mesh fills space. -/
example : ∃ m m', ratA = some m ∧ ratCap = some m' ∧ Tiles m ∧ (∀ q ∈ [(4, 0, 1, 2), (0, 3, 4, 1), (3, 0, 4, 2)], Mesh.positive m q = true) ∧ Tiles m' := by
  obtain ⟨m, m', h1, h2, h3, h4⟩ := ratCap_ok
  obtain ⟨m1, k1, k2, -, -, -, -, k3, -⟩ := ratA_tiles
  obtain rfl := Option.some.inj (h1.symm.trans k1)
  have pos : ∀ q ∈ [((4, 0, 1, 2) : V4), (0, 3, 4, 1), (3, 0, 4, 2)], Mesh.positive m q = true := by
    intro q hq
    simp only [List.mem_cons, List.not_mem_nil, or_false] at hq
    rcases hq with rfl | rfl | rfl
    · exact of_map (f := fun m => Mesh.positive m (4, 0, 1, 2)) (b := true) h1 (by decide +kernel)
    · exact of_map (f := fun m => Mesh.positive m (0, 3, 4, 1)) (b := true) h1 (by decide +kernel)
    · exact of_map (f := fun m => Mesh.positive m (3, 0, 4, 2)) (b := true) h1 (by decide +kernel)
  exact ⟨m, m', h1, h2, k3, pos, h4.tiles k2 h3 (by decide) pos k3⟩

/-- The hypotheses of `C89_shell` hold in `ratB`. -/
theorem ratShell_ok : ∃ m m', ratB = some m ∧ m.shellTransform 0 [1, 2, 3] 4 0 [(1, 2, 3)] = some m' ∧ Consistent m' ∧
    Transformed m m' [(2, 4, 1, 0), (3, 4, 2, 0), (1, 4, 3, 0)] [(2, 1, 3, 4), (1, 2, 3, 0)] [(1, 2, 3)] 4 [0, 1, 2, 3] ∧ ¬ HasEdge m' 4 0 := by
  obtain ⟨m, h1, h2⟩ := ratB_recover
  have h2 : Consistent m := h2.consistent
  have hS := ratB_shows h1
  obtain ⟨m', e, c, t⟩ := C89_shell h2 (of_map (f := fun m => m.trackTriMap) (b := true) h1 (by decide +kernel))
    (vt := 4) (vb := 0) (a := 1) (l := [2]) (b := 3) (tris := [(1, 2, 3)]) (by decide) (by decide) (by decide)
    ⟨[(1, 2, 3)], [(1, 2, 3)], .split (l₁ := []) (l₂ := []) (.side 1 2) (.side 2 3), .refl _, .cons (.inl rfl) .nil⟩
    (by
      intro p hp
      simp only [fanTets, pathEdges, List.map_append, List.map_cons, List.map_nil, List.mem_append, List.mem_cons, List.not_mem_nil, or_false] at hp
      rcases hp with (rfl | rfl) | rfl
      · exact (hS _).2 (by decide +kernel)
      · exact (hS _).2 (by decide +kernel)
      · exact (hS _).2 (by decide +kernel))
    (by
      intro e he
      refine .inl ?_
      simpa [triSides, pathEdges] using he)
    (by
      intro r hr
      rw [List.mem_singleton] at hr
      subst hr
      exact tri_of_check (of_map (f := fun m => noTri m (1, 2, 3)) (b := true) h1 (by decide +kernel)))
    (by
      intro e he
      simp only [pathEdges, List.mem_append, List.mem_cons, List.not_mem_nil, or_false] at he
      rcases he with (rfl | rfl) | rfl
      · exact locked_of_check (of_map (f := fun m => noLock m (1, 2, 0)) (b := true) h1 (by decide +kernel))
      · exact locked_of_check (of_map (f := fun m => noLock m (2, 3, 0)) (b := true) h1 (by decide +kernel))
      · exact locked_of_check (of_map (f := fun m => noLock m (3, 1, 0)) (b := true) h1 (by decide +kernel)))
    (of_decide_eq_true (of_map (f := fun m => decide (m.tets.size + 1 ≤ idMax)) (b := true) h1 (by decide +kernel)))
    (of_decide_eq_true (of_map (f := fun m => decide (m.edges.size + 12 * 1 ≤ idMax)) (b := true) h1 (by decide +kernel))) 0
  exact ⟨m, m', h1, e, c, t⟩

/-- A mesh with a locked triangle under the path: `C88_locks` says that the result is not consistent. -/
example : ∃ m m' : Mesh (Pt ℚ) Nat Unit, Consistent m ∧ LockedTri m (4, 3, 2) ∧ m.capTransform 0 [4, 3, 0] 1 2 [(3, 0, 4)] = some m' ∧
    ¬ Consistent m' := by
  obtain ⟨m0, h1, h2, h3⟩ := ratA_ok
  obtain ⟨m, h4, h5, -, h6, -, h7, -⟩ := lockTriAt_ok h2.toT (of_map (f := fun m => m.tri ⟨1, 3⟩) (b := some (4, 3, 2)) h1 (by decide +kernel))
  have hS := ratA_shows h1
  have h8 : (ratA.bind fun m => m.lockTriAt ⟨1, 3⟩) = some m := by rw [h1]; exact h4
  obtain ⟨m', e, -, c⟩ := C88_locks h5 (of_map (f := fun m => m.trackTriMap) (b := true) h8 (by decide +kernel))
    (vt := 1) (vb := 2) (a := 4) (l := [3]) (b := 0) (tris := [(3, 0, 4)]) (by decide) (by decide)
    ⟨[(4, 3, 0)], [(4, 3, 0)], .split (l₁ := []) (l₂ := []) (.side 4 3) (.side 3 0), .refl _, .cons (.inr (.inl rfl)) .nil⟩
    (by
      intro p hp
      simp only [fanTets, pathEdges, List.map_cons, List.map_nil, List.mem_cons, List.not_mem_nil, or_false] at hp
      rcases hp with rfl | rfl
      · exact (h6 _).2 ((hS _).2 (by decide +kernel))
      · exact (h6 _).2 ((hS _).2 (by decide +kernel)))
    (by
      have := edge_of_check (of_map (f := fun m => noEdge m 0 4) (b := true) h8 (by decide +kernel))
      intro e he
      simp only [triSides, List.flatMap_cons, List.flatMap_nil, List.append_nil, List.mem_cons, List.not_mem_nil, or_false] at he
      rcases he with rfl | rfl | rfl
      · exact .inl (by simp [pathEdges])
      · exact .inr this
      · exact .inl (by simp [pathEdges]))
    (of_decide_eq_true (of_map (f := fun m => decide (m.tets.size + 1 ≤ idMax)) (b := true) h8 (by decide +kernel)))
    (of_decide_eq_true (of_map (f := fun m => decide (m.edges.size + 12 * 1 + 6 ≤ idMax)) (b := true) h8 (by decide +kernel))) 0
  exact ⟨m, m', h5, h7, e, fun hc => (c.1 hc).1 (4, 3) (by simp [pathEdges]) h7⟩

end Tet
