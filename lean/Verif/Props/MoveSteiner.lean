import Verif.Proofs.MoveSteiner
import Verif.Props.TriSteiner

/-!
# C94: moving Steiner points off a triangle
-/

namespace Tet
open Spec
variable {K V T C : Type} [Field K] [LinearOrder K] [IsStrictOrderedRing K]

/-- C94: if `move_steiner_points_inside_volume` returns, then it gives the Steiner points in turns with new vertices, their copies.  The
values stay; the points and the copies go to different sides of the plane of the triangle, those of edges also away from the triangle;
no other vertex is moved.  All that is needed of the mesh is that its map of vertices is in a reachable state (C02). -/
theorem C94_moved {env : MoveEnv K C} {xy : Pt K → K × K} {fuel : Nat} {tri : V3} {l0 l1 l2 l3 : List VId} {s : MoveState K V T C}
    {m' : Mesh (Pt K) V T} {new : List VId} (hm : s.mesh.vertices.WF) {p0 p1 p2 : Pt K} {x0 x1 x2 : V} (h0 : Vert s.mesh tri.1 p0 x0)
    (h1 : Vert s.mesh tri.2.1 p1 x1) (h2 : Vert s.mesh tri.2.2 p2 x2) (hpos : ∀ p, p ≠ ⟨0, 0, 0⟩ → 0 < env.norm p)
    (hnn : ∀ p, 0 ≤ env.norm p) (hN : ¬ Parallel (p1.sub p0) (p2.sub p0)) (hnd : (l0 ++ l1 ++ l2 ++ l3).Nodup)
    (hx : ∀ p ∈ l0 ++ l1 ++ l2 ++ l3, ∃ q x, Vert s.mesh p q x) (hc : ∀ v ∈ [tri.1, tri.2.1, tri.2.2], v ∉ l0 ++ l1 ++ l2 ++ l3)
    (h : moveSteiner env xy fuel tri l0 l1 l2 l3 s = some (m', new)) :
    ∃ ss, new = weave (l0 ++ l1 ++ l2 ++ l3) ss ∧ MovedApart s.mesh m' (l0 ++ l1 ++ l2 ++ l3) ss (OffTriangle p0 p1 p2 l0 l1 l2 l3) :=
  move_moved hm h0 h1 h2 hpos hnn (fun e => hN ((parallel_iff _ _).2 e)) hnd hx hc h

/-- C94: a point in the plane of the triangle goes to the side from which the triangle is seen counterclockwise and its copy to the other
one; strictly if the point is on an edge. -/
theorem C94_sides {p0 p1 p2 q d d' : Pt K} {l0 l1 l2 l3 : List VId} {p : VId} (hN : ¬ Parallel (p1.sub p0) (p2.sub p0))
    (hq : orient3d p0 p1 p2 q = 0) (h : OffTriangle p0 p1 p2 l0 l1 l2 l3 p d d') :
    (p ∈ l0 ++ l1 ++ l2 → orient3d p0 p1 p2 (q.add d) < 0 ∧ 0 < orient3d p0 p1 p2 (q.add d')) ∧
    (p ∈ l3 → orient3d p0 p1 p2 (q.add d) ≤ 0 ∧ 0 ≤ orient3d p0 p1 p2 (q.add d')) := by
  have hn := norm2_pos (fun e => hN ((parallel_iff _ _).2 e))
  set n := (p1.sub p0).cross (p2.sub p0) with en
  have side : ∀ d, orient3d p0 p1 p2 (q.add d) = - n.dot d := by
    intro d
    have : orient3d p0 p1 p2 (q.add d) = orient3d p0 p1 p2 q - n.dot d := by
      rw [en]
      simp only [orient3d, Pt.dot, Pt.cross, Pt.sub, Pt.add]
      ring
    rw [this, hq, zero_sub]
  have away : ∀ o, n.dot o = 0 → Astride n o d d' → orient3d p0 p1 p2 (q.add d) < 0 ∧ 0 < orient3d p0 p1 p2 (q.add d') := by
    rintro o ho ⟨k, l, k', l', hk, -, hk', -, rfl, rfl⟩
    rw [side, side]
    have e1 : n.dot ((Pt.smul k n).add (Pt.smul l o)) = k * n.norm2 + l * n.dot o := by simp only [Pt.dot, Pt.add, Pt.smul, Pt.norm2]; ring
    have e2 : n.dot ((Pt.smul (-k') n).add (Pt.smul l' o)) = -(k' * n.norm2) + l' * n.dot o := by simp only [Pt.dot, Pt.add, Pt.smul, Pt.norm2]; ring
    rw [e1, e2, ho]
    have := mul_pos hk hn
    have := mul_pos hk' hn
    constructor <;> linarith
  have perp : ∀ e : Pt K, n.dot (e.cross n) = 0 := fun e => by simp only [Pt.dot, Pt.cross]; ring
  refine ⟨fun hp => ?_, fun hp => ?_⟩
  · simp only [List.mem_append] at hp
    rcases hp with (hp | hp) | hp
    · exact away _ (perp _) (h.1 hp)
    · exact away _ (perp _) (h.2.1 hp)
    · exact away _ (perp _) (h.2.2.1 hp)
  · obtain ⟨k, k', hk, hk', rfl, rfl⟩ := h.2.2.2 hp
    rw [side, side]
    have e1 : n.dot (Pt.smul k n) = k * n.norm2 := by simp only [Pt.dot, Pt.smul, Pt.norm2]; ring
    have e2 : n.dot (Pt.smul (-k') n) = -(k' * n.norm2) := by simp only [Pt.dot, Pt.smul, Pt.norm2]; ring
    rw [e1, e2]
    have := mul_nonneg hk hn.le
    have := mul_nonneg hk' hn.le
    constructor <;> linarith

omit [IsStrictOrderedRing K] in
/-- C94, negation of the intent: for a Steiner point inside the triangle the handle of the first edge at the point is looked up in the map
of vertices.  If no vertex happens to have the same handle, then the function panics. -/
theorem C94_edge_handle {env : MoveEnv K C} {xy : Pt K → K × K} {fuel : Nat} {normal : Pt K} {s : MoveState K V T C} {point : VId} {i e : Nat}
    {es : List Nat} (hi : s.handle point = some i) (he : env.outEdges s.cdt i = e :: es) (hv : s.invMap e = none) :
    s.inTri env xy fuel normal point = none := by
  rw [Option.eq_none_iff_forall_ne_some]
  intro r h
  simp only [MoveState.inTri, Option.bind_eq_bind] at h
  obtain ⟨o, -, h⟩ := Option.bind_eq_some_iff.1 h
  obtain ⟨t, -, h⟩ := Option.bind_eq_some_iff.1 h
  obtain ⟨j, hj, h⟩ := Option.bind_eq_some_iff.1 h
  obtain ⟨e', he', h⟩ := Option.bind_eq_some_iff.1 h
  obtain ⟨v, hv', -⟩ := Option.bind_eq_some_iff.1 h
  rw [hi] at hj
  cases hj
  rw [he] at he'
  cases he'
  rw [hv] at hv'
  cases hv'

/-! ### Examples -/

/-- The triangulation of `lastEnv`; around the vertex 1 there are edges to 2, 3 and 0. -/
def moveEnv : MoveEnv ℚ (List (ℚ × ℚ)) := { lastEnv with
  remove := fun c i => c.eraseIdx i
  locate := fun c p => c.idxOf? p
  ccwIter := fun _ _ => [102, 103, 100]
  outEdges := fun _ _ => [102, 103, 100]
  source := fun _ e => e / 100
  target := fun _ e => e % 100
  ccw := fun _ e => if e = 102 then 103 else if e = 103 then 100 else 102
  norm := fun p => |p.x| + |p.y| + |p.z|
  orderM := id }

/-- The vertices of `ratLong` and the Steiner point 6 between 4 and 0 -/
def splitVertices : List (Option (Vertex (Pt ℚ) Nat)) :=
  [
    some ⟨⟨14, 6⟩, {}, ⟨0, 0, 0⟩, 0⟩, some ⟨⟨14, 2⟩, {}, ⟨1, 0, 0⟩, 1⟩, some ⟨⟨14, 10⟩, {}, ⟨0, 1, 0⟩, 2⟩, some ⟨⟨13, 1⟩, {}, ⟨0, 0, 1⟩, 3⟩,
    some ⟨⟨12, 0⟩, {}, ⟨1, 1, 1⟩, 4⟩, some ⟨⟨1, 3⟩, {}, ⟨21 / 20, 11 / 10, 6 / 5⟩, 5⟩, some ⟨⟨7, 1⟩, {}, ⟨1 / 3, 1 / 3, 1 / 3⟩, 4⟩]

/-- The edges, and whether they are locked -/
def splitEdges : List ((VId × VId) × Bool) :=
  [
    ((0, 1), false), ((0, 3), false), ((0, 2), true), ((1, 3), false), ((1, 2), false), ((2, 3), false), ((0, GHOST), false),
    ((1, GHOST), false), ((3, GHOST), false), ((2, GHOST), false), ((1, 4), false), ((3, 4), false), ((2, 4), true), ((4, GHOST), false),
    ((4, 5), false), ((3, 5), false), ((2, 5), false), ((5, GHOST), false), ((3, 6), false), ((1, 6), false), ((4, 6), true),
    ((2, 6), true), ((0, 6), true)]

def splitTets : List (Option (Tet Unit)) :=
  [
    some ⟨![0, 1, 3, 6], ![⟨7, 7⟩, ⟨13, 7⟩, ⟨14, 3⟩, ⟨4, 7⟩], ![18, 0, 3, 22, 19, 1], {}, ()⟩,
    some ⟨![5, 3, 2, GHOST], ![⟨2, 8⟩, ⟨8, 0⟩, ⟨9, 4⟩, ⟨10, 8⟩], ![9, 15, 5, 17, 8, 16], {}, ()⟩,
    some ⟨![0, 2, 3, GHOST], ![⟨1, 8⟩, ⟨4, 5⟩, ⟨3, 2⟩, ⟨13, 5⟩], ![8, 2, 5, 6, 9, 1], {}, ()⟩,
    some ⟨![2, 0, 1, GHOST], ![⟨4, 8⟩, ⟨5, 5⟩, ⟨2, 2⟩, ⟨14, 6⟩], ![7, 2, 0, 9, 6, 4], {}, ()⟩,
    some ⟨![3, 1, 0, GHOST], ![⟨3, 8⟩, ⟨2, 5⟩, ⟨6, 2⟩, ⟨0, 7⟩], ![6, 3, 0, 8, 7, 1], {}, ()⟩,
    some ⟨![1, 4, 2, GHOST], ![⟨8, 1⟩, ⟨3, 5⟩, ⟨6, 9⟩, ⟨11, 5⟩], ![9, 10, 12, 7, 13, 4], {}, ()⟩,
    some ⟨![1, 3, 4, GHOST], ![⟨9, 6⟩, ⟨5, 10⟩, ⟨4, 2⟩, ⟨7, 2⟩], ![13, 3, 11, 7, 8, 10], {}, ()⟩,
    some ⟨![1, 3, 6, 4], ![⟨12, 6⟩, ⟨11, 10⟩, ⟨6, 3⟩, ⟨0, 4⟩], ![20, 3, 18, 10, 11, 19], {}, ()⟩,
    some ⟨![4, 5, 2, GHOST], ![⟨1, 1⟩, ⟨5, 0⟩, ⟨9, 9⟩, ⟨10, 5⟩], ![9, 14, 16, 13, 17, 12], {}, ()⟩,
    some ⟨![4, 3, 5, GHOST], ![⟨1, 6⟩, ⟨8, 10⟩, ⟨6, 4⟩, ⟨10, 2⟩], ![17, 11, 15, 13, 8, 14], {}, ()⟩,
    some ⟨![4, 3, 2, 5], ![⟨1, 11⟩, ⟨8, 7⟩, ⟨9, 3⟩, ⟨12, 8⟩], ![16, 11, 5, 14, 15, 12], {}, ()⟩,
    some ⟨![1, 6, 2, 4], ![⟨12, 1⟩, ⟨5, 7⟩, ⟨7, 9⟩, ⟨14, 4⟩], ![12, 19, 21, 10, 20, 4], { locked := ![true, false, false, false] }, ()⟩,
    some ⟨![6, 3, 2, 4], ![⟨10, 11⟩, ⟨11, 0⟩, ⟨7, 4⟩, ⟨13, 4⟩], ![12, 18, 5, 20, 11, 21], { locked := ![false, true, false, false] }, ()⟩,
    some ⟨![0, 6, 3, 2], ![⟨12, 7⟩, ⟨2, 7⟩, ⟨14, 9⟩, ⟨0, 5⟩], ![5, 22, 18, 2, 21, 1], { locked := ![false, false, true, false] }, ()⟩,
    some ⟨![0, 1, 6, 2], ![⟨11, 7⟩, ⟨13, 10⟩, ⟨3, 7⟩, ⟨0, 2⟩], ![21, 0, 19, 2, 4, 22], { locked := ![false, true, false, false] }, ()⟩]

/-- The triangles and where they are -/
def splitTris : List (V3 × Walker) :=
  [
    ((1, (6, 3)), ⟨0, 0⟩), ((0, (3, 6)), ⟨0, 1⟩), ((0, (6, 1)), ⟨0, 2⟩), ((0, (1, 3)), ⟨0, 3⟩), ((2, (3, GHOST)), ⟨1, 0⟩),
    ((2, (GHOST, 5)), ⟨1, 1⟩), ((3, (5, GHOST)), ⟨1, 2⟩), ((2, (5, 3)), ⟨1, 3⟩), ((2, (GHOST, 3)), ⟨2, 0⟩), ((0, (3, GHOST)), ⟨2, 1⟩),
    ((0, (GHOST, 2)), ⟨2, 2⟩), ((0, (2, 3)), ⟨2, 3⟩), ((0, (GHOST, 1)), ⟨3, 0⟩), ((1, (GHOST, 2)), ⟨3, 1⟩), ((0, (2, GHOST)), ⟨3, 2⟩),
    ((0, (1, 2)), ⟨3, 3⟩), ((0, (1, GHOST)), ⟨4, 0⟩), ((0, (GHOST, 3)), ⟨4, 1⟩), ((1, (3, GHOST)), ⟨4, 2⟩), ((0, (3, 1)), ⟨4, 3⟩),
    ((2, (4, GHOST)), ⟨5, 0⟩), ((1, (2, GHOST)), ⟨5, 1⟩), ((1, (GHOST, 4)), ⟨5, 2⟩), ((1, (4, 2)), ⟨5, 3⟩), ((3, (GHOST, 4)), ⟨6, 0⟩),
    ((1, (4, GHOST)), ⟨6, 1⟩), ((1, (GHOST, 3)), ⟨6, 2⟩), ((1, (3, 4)), ⟨6, 3⟩), ((3, (4, 6)), ⟨7, 0⟩), ((1, (6, 4)), ⟨7, 1⟩),
    ((1, (4, 3)), ⟨7, 2⟩), ((1, (3, 6)), ⟨7, 3⟩), ((2, (5, GHOST)), ⟨8, 0⟩), ((2, (GHOST, 4)), ⟨8, 1⟩), ((4, (GHOST, 5)), ⟨8, 2⟩),
    ((2, (4, 5)), ⟨8, 3⟩), ((3, (GHOST, 5)), ⟨9, 0⟩), ((4, (5, GHOST)), ⟨9, 1⟩), ((3, (4, GHOST)), ⟨9, 2⟩), ((3, (5, 4)), ⟨9, 3⟩),
    ((2, (3, 5)), ⟨10, 0⟩), ((2, (5, 4)), ⟨10, 1⟩), ((3, (4, 5)), ⟨10, 2⟩), ((2, (4, 3)), ⟨10, 3⟩), ((2, (6, 4)), ⟨11, 0⟩),
    ((1, (2, 4)), ⟨11, 1⟩), ((1, (4, 6)), ⟨11, 2⟩), ((1, (6, 2)), ⟨11, 3⟩), ((2, (3, 4)), ⟨12, 0⟩), ((2, (4, 6)), ⟨12, 1⟩),
    ((3, (6, 4)), ⟨12, 2⟩), ((2, (6, 3)), ⟨12, 3⟩), ((2, (3, 6)), ⟨13, 0⟩), ((0, (3, 2)), ⟨13, 1⟩), ((0, (2, 6)), ⟨13, 2⟩),
    ((0, (6, 3)), ⟨13, 3⟩), ((1, (2, 6)), ⟨14, 0⟩), ((0, (6, 2)), ⟨14, 1⟩), ((0, (2, 1)), ⟨14, 2⟩), ((0, (1, 6)), ⟨14, 3⟩)]

/-- What `recoverTriWithSteiner lastEnv 100 100 4 10 (4, 0, 2)` makes of `ratLong` (`C93_panics`): the triangle consists of 4, 6, 2 and 6, 0, 2. -/
def splitMesh : Mesh (Pt ℚ) Nat Unit :=
  ⟨⟨⟨splitVertices, 7⟩, []⟩, {}, ⟨⟨splitEdges.map fun e => some { vertices := e.1, locked := e.2 }, 23⟩, []⟩, ⟨⟨splitTets, 15⟩, []⟩,
    fun t => splitTris.lookup t, true, ⟨1 / 5, 1 / 4, 3 / 10⟩, ()⟩

def moveXy : Pt ℚ → ℚ × ℚ := gramXy ⟨1, 1, 1⟩ ⟨0, 0, 0⟩ ⟨0, 1, 0⟩

/-- The mesh with a triangulation that has the vertices 4, 6, 0 and 2 -/
def moveStart : MoveState ℚ Nat Unit (List (ℚ × ℚ)) :=
  ⟨splitMesh, [(0, 0), (2, 4 / 3), (3, 2), (2, 2)], [(4, 0), (6, 1), (0, 2), (2, 3)], fun i => [4, 6, 0, 2][i]?⟩

/-- The map of vertices has no holes. -/
def fullCheck {α : Type} (m : IdMap α) : Bool :=
  m.free.isEmpty && m.map.slots.all Option.isSome && decide (m.map.slots.length ≤ m.map.cap) && decide (m.map.slots.length ≤ idMax)

theorem wf_of_full {α : Type} {m : IdMap α} (h : fullCheck m = true) : m.WF := by
  simp only [fullCheck, Bool.and_eq_true, List.isEmpty_iff, List.all_eq_true, decide_eq_true_eq] at h
  obtain ⟨⟨⟨h1, h2⟩, h3⟩, h4⟩ := h
  refine ⟨by simp [h1], fun k => ?_, h3, h4⟩
  simp only [h1, List.not_mem_nil, false_iff, not_and]
  intro hk hn
  rw [IdMap.get_def, List.getElem?_eq_getElem hk] at hn
  have := h2 _ (List.getElem_mem hk)
  rw [Option.join_some] at hn
  simp [hn] at this

/-- Positions and values of vertices -/
def vertsOf (m : Mesh (Pt ℚ) Nat Unit) (l : List VId) : List (Option (Pt ℚ × Nat)) := l.map (info m)

theorem moveStart_wf : moveStart.mesh.vertices.WF := wf_of_full (by decide +kernel)

/-- As `moveEnv`, but the traversal of faces skips them all, so that only the gap is filled: the whole run is too long for the kernel. -/
def gapEnv : MoveEnv ℚ (List (ℚ × ℚ)) := { moveEnv with orderF := fun _ => [] }

/-- All hypotheses of `C94_moved`, and what comes out. -/
example : ∃ m' : Mesh (Pt ℚ) Nat Unit, moveStart.mesh.vertices.WF ∧ Vert moveStart.mesh 4 ⟨1, 1, 1⟩ 4 ∧ Vert moveStart.mesh 0 ⟨0, 0, 0⟩ 0 ∧
    Vert moveStart.mesh 2 ⟨0, 1, 0⟩ 2 ∧ (∀ p, p ≠ ⟨0, 0, 0⟩ → 0 < gapEnv.norm p) ∧ (∀ p, 0 ≤ gapEnv.norm p) ∧
    ¬ Parallel (Pt.sub ⟨0, 0, 0⟩ ⟨1, 1, 1⟩ : Pt ℚ) (Pt.sub ⟨0, 1, 0⟩ ⟨1, 1, 1⟩) ∧ Vert moveStart.mesh 6 ⟨1 / 3, 1 / 3, 1 / 3⟩ 4 ∧
    moveSteiner gapEnv moveXy 100 (4, 0, 2) [6] [] [] [] moveStart = some (m', [6, 7]) ∧
    Vert m' 6 ⟨7 / 12, 1 / 6, 1 / 4⟩ 4 ∧ Vert m' 7 ⟨1 / 4, 1 / 6, 7 / 12⟩ 4 := by
  have h0 : (moveSteiner gapEnv moveXy 100 (4, 0, 2) [6] [] [] [] moveStart).isSome = true := by decide +kernel
  obtain ⟨⟨m', new⟩, h1⟩ := Option.isSome_iff_exists.1 h0
  have hs : vertsOf moveStart.mesh [4, 0, 2, 6] =
    [some (⟨1, 1, 1⟩, 4), some (⟨0, 0, 0⟩, 0), some (⟨0, 1, 0⟩, 2), some (⟨1 / 3, 1 / 3, 1 / 3⟩, 4)] := by decide +kernel
  have ht := of_map (f := fun r => (r.2, vertsOf r.1 [6, 7]))
    (b := ([6, 7], [some (⟨7 / 12, 1 / 6, 1 / 4⟩, 4), some (⟨1 / 4, 1 / 6, 7 / 12⟩, 4)])) h1 (by decide +kernel)
  simp only [vertsOf, List.map_cons, List.map_nil, Prod.mk.injEq, List.cons.injEq, and_true] at hs ht
  obtain ⟨k4, k0, k2, k6⟩ := hs
  obtain ⟨rfl, j6, j7⟩ := ht
  have nn : ∀ p, 0 ≤ gapEnv.norm p := fun p => add_nonneg (add_nonneg (abs_nonneg _) (abs_nonneg _)) (abs_nonneg _)
  refine ⟨m', moveStart_wf, vert_iff.2 k4, vert_iff.2 k0, vert_iff.2 k2, fun p hp => lt_of_le_of_ne (nn p) fun e => hp ?_, nn, ?_,
    vert_iff.2 k6, h1, vert_iff.2 j6, vert_iff.2 j7⟩
  · have e : 0 = |p.x| + |p.y| + |p.z| := e
    have hx := abs_nonneg p.x
    have hy := abs_nonneg p.y
    have hz := abs_nonneg p.z
    obtain ⟨x, y, z⟩ := p
    simp only [Pt.mk.injEq]
    exact ⟨abs_eq_zero.1 (by linarith), abs_eq_zero.1 (by linarith), abs_eq_zero.1 (by linarith)⟩
  · rw [parallel_iff]
    decide +kernel

-- The same with all faces, evaluated and not checked by the kernel
#guard ((moveSteiner moveEnv moveXy 100 (4, 0, 2) [6] [] [] [] moveStart).map fun r => (r.2, vertsOf r.1 [6, 7])) =
  some ([6, 7], [some (⟨7 / 12, 1 / 6, 1 / 4⟩, 4), some (⟨1 / 4, 1 / 6, 7 / 12⟩, 4)])

/-- The hypotheses of `C94_edge_handle`: no vertex has the handle 102. -/
example : moveStart.handle 6 = some 1 ∧ moveEnv.outEdges moveStart.cdt 1 = [102, 103, 100] ∧ moveStart.invMap 102 = none := by
  decide +kernel

end Tet
