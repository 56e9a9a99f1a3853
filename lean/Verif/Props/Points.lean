import Verif.Proofs.TrisInter
import Verif.Props.Steiner
import Verif.Props.GeneralTri

/-!
# Properties of intersection points and tests with tolerances: C83 to C87
-/

namespace Tet
open Spec Vec4
variable {K V T : Type} [Field K] [LinearOrder K] [IsStrictOrderedRing K]

/-! ### C83: the points in which edges cross a triangle -/

/-- C83: `tri_intersections` gives the edges that `tri_intersections_raw` gives, each with a point strictly inside the triangle
and strictly inside the edge. -/
theorem C83_points {m : Mesh (Pt K) V T} (hm : Consistent m) {t : V3} {p0 p1 p2 : Pt K} (h0 : At m t.1 p0) (h1 : At m t.2.1 p1)
    (h2 : At m t.2.2 p2) (hn : [t.1, t.2.1, t.2.2].Nodup) :
    ∃ r, Settles (fun fuel => m.triPoints fuel t) r ∧ TriPointsFound m t r := triPoints_does hm h0 h1 h2 hn

/-- C83: in general position, if the mesh fills space and has the edges of the triangle, these are all edges through it. -/
theorem C83_all {m : Mesh (Pt K) V T} (hm : Consistent m) (ht : Tiles m) (hf : NoFlat m) {t : V3} (ha : Solid m t.1)
    (hb : Solid m t.2.1) (hc : Solid m t.2.2) (hn : [t.1, t.2.1, t.2.2].Nodup) (he : ∀ e ∈ triEdges t, HasEdge m e.1 e.2) :
    ∃ l, Settles (fun fuel => m.triPoints fuel t) (some l) ∧ ThroughTri m t (l.map (·.1)) ∧
      ∀ x ∈ l, Amid m (corners (.tri t)) x.2 ∧ Amid m (corners (.edge x.1)) x.2 := by
  obtain ⟨l, ⟨N, h1⟩, h2, -⟩ := C78_search hm ht hf ha hb hc he
  have at' : ∀ v, Solid m v → ∃ p, At m v p := by
    intro v hv
    rcases solid_placed hm hv with h | h
    · exact absurd h hv.2
    · obtain ⟨x, hx⟩ := Option.ne_none_iff_exists'.1 h
      exact ⟨x.position, hv.2, x, hx, rfl⟩
  obtain ⟨p0, k0⟩ := at' _ ha
  obtain ⟨p1, k1⟩ := at' _ hb
  obtain ⟨p2, k2⟩ := at' _ hc
  obtain ⟨r, ⟨N', h3⟩, h4, h5⟩ := triPoints_does hm k0 k1 k2 hn
  have e := h3 (max N N') (le_max_right _ _)
  have e' := h1 (max N N') (le_max_left _ _)
  simp only [Mesh.triPoints, idx_of_At k0, idx_of_At k1, idx_of_At k2, Option.bind_eq_bind, Option.bind_some] at e
  obtain ⟨is, hi, hil⟩ := Option.map_eq_some_iff.1 e'
  rw [hi] at e
  cases e
  refine ⟨_, ⟨N', h3⟩, ?_, fun x hx => h5 _ rfl x hx⟩
  rw [List.map_map]
  exact hil ▸ h2

/-! ### C84: tests with tolerances -/

/-- C84: a vertex is close to a solid tet iff it is, for no side, beyond the side with at least that distance from its plane. -/
theorem C84_close {norm : Pt K → K} (hN : IsNorm norm) {m : Mesh (Pt K) V T} {a b c d p : VId} {pa pb pc pd pp : Pt K} (ha : At m a pa)
    (hb : At m b pb) (hc : At m c pc) (hd : At m d pd) (hp : At m p pp) (ho : 0 < orient3d pa pb pc pd) {tol : K} :
    ∃ r, m.tetCloseToVertex norm tol a b c d p = some r ∧ (r = true ↔ ¬ FarBeyond pd pc pb pa pp tol ∧ ¬ FarBeyond pc pd pa pb pp tol ∧
      ¬ FarBeyond pb pa pd pc pp tol ∧ ¬ FarBeyond pa pb pc pd pp tol) := close_solid hN ha hb hc hd hp ho

/-- C84: so all vertices nearer to a point of the tet than the tolerance are close. -/
theorem C84_near {norm : Pt K → K} (hN : IsNorm norm) {m : Mesh (Pt K) V T} {a b c d p : VId} {pa pb pc pd pp q : Pt K} (ha : At m a pa)
    (hb : At m b pb) (hc : At m c pc) (hd : At m d pd) (hp : At m p pp) (ho : 0 < orient3d pa pb pc pd) {tol : K} (ht : 0 < tol)
    (hq : InClosedTet pa pb pc pd q) (hpq : norm (pp.sub q) < tol) : m.tetCloseToVertex norm tol a b c d p = some true := by
  have h2 : (pp.sub q).norm2 < tol * tol := by
    rw [← hN.sq]
    exact mul_self_lt_mul_self (hN.nonneg _) hpq
  obtain ⟨r, h, hr⟩ := close_solid hN ha hb hc hd hp ho (tol := tol)
  rw [h, hr.2]
  obtain ⟨ka, kb, kc, kd, g1, g2, g3, g4, g5, rfl⟩ := hq
  refine ⟨not_far ht ⟨kd, kc, kb, ka, g4, g3, g2, g1, by rw [← g5]; ring, ?_⟩ h2,
    not_far ht ⟨kc, kd, ka, kb, g3, g4, g1, g2, by rw [← g5]; ring, ?_⟩ h2,
    not_far ht ⟨kb, ka, kd, kc, g2, g1, g4, g3, by rw [← g5]; ring, ?_⟩ h2, not_far ht ⟨ka, kb, kc, kd, g1, g2, g3, g4, g5, rfl⟩ h2⟩ <;>
  · simp only [comb, List.foldr, Pt.add, Pt.smul, Pt.mk.injEq]
    refine ⟨?_, ?_, ?_⟩ <;> ring

/-- C84: for ghost tets, a vertex is close iff it is not at least that far on the side of the centre; from all walkers. -/
theorem C84_ghost {norm : Pt K → K} (hN : IsNorm norm) {m : Mesh (Pt K) V T} {a b c p : VId} {pa pb pc pp : Pt K} (ha : At m a pa)
    (hb : At m b pb) (hc : At m c pc) (hp : At m p pp) (ho : orient3d pa pb pc m.center < 0) {tol : K} {q : V4}
    (hq : SameTet (a, b, c, GHOST) q) :
    ∃ r, m.tetCloseToVertex norm tol q.1 q.2.1 q.2.2.1 q.2.2.2 p = some r ∧ (r = true ↔ ∀ n : Pt K, n.norm2 = 1 → n.dot (pb.sub pa) = 0 →
      n.dot (pc.sub pa) = 0 → 0 < n.dot (m.center.sub pa) → n.dot (pp.sub pa) < tol) := close_ghost hN ha hb hc hp ho (mem_twelve.2 hq)

/-- C84: a solid tet is no sliver iff it is positively oriented and all points in the planes and lines of opposite sides, edges
and vertices are at least as far from each other as the tolerance. -/
theorem C84_sliver {norm : Pt K → K} (hN : IsNorm norm) {sim : VId → VId → VId → VId → Bool} {nan : Bool}
    {m : Mesh (Pt K) V T} {a b c d : VId} {pa pb pc pd : Pt K} (ha : At m a pa) (hb : At m b pb) (hc : At m c pc)
    (hd : At m d pd) (hn : [a, b, c, d].Nodup) {tol : K} (ht : -1 < tol) :
    ∃ r, m.nonSliver norm sim nan tol a b c d = some r ∧
      (r = true ↔ 0 < orient3d pa pb pc pd ∧ ∀ p q, OnOpposite pa pb pc pd p q → tol ≤ norm (p.sub q)) := by
  obtain ⟨r, h1, h2, h3⟩ := C40_value hN (sim := sim) (nan := nan) ha hb hc hd hn
  refine ⟨decide ((tol : WithTop K) ≤ (r : WithTop K)), by simp [Mesh.nonSliver, h1], ?_⟩
  rw [decide_eq_true_eq, WithTop.coe_le_coe]
  rcases le_or_gt (orient3d pa pb pc pd) 0 with h | h
  · rw [h2 h]
    exact ⟨fun h' => absurd h' (not_le.2 ht), fun h' => absurd h'.1 (not_lt.2 h)⟩
  · obtain ⟨-, ⟨p, q, k1, k2⟩, k3⟩ := h3 h
    exact ⟨fun h' => ⟨h, fun p q hpq => h'.trans (k3 p q hpq)⟩, fun h' => (h'.2 p q k1).trans k2.le⟩

/-- C84: all walkers of a tet give the same answer. -/
theorem C84_walkers {norm : Pt K → K} {sim : VId → VId → VId → VId → Bool} {nan : Bool} {m : Mesh (Pt K) V T}
    (hm : Consistent m) (hsim : IsSim m.idxOri sim) {w w' : Walker} (hww : w.tet = w'.tet)
    {a b c d a' b' c' d' : VId} (hw : m.tet4 w = some (a, b, c, d)) (hw' : m.tet4 w' = some (a', b', c', d')) (tol : K) :
    m.nonSliver norm sim nan tol a' b' c' d' = m.nonSliver norm sim nan tol a b c d := by
  unfold Mesh.nonSliver
  rw [C40_walkers hm hsim hww hw hw']

/-! ### C85: normals of triangles -/

/-- C85: `tri_normal` is perpendicular to the edges, points to the negative side, ... -/
theorem C85_normal {m : Mesh (Pt K) V T} {a b c : VId} {pa pb pc : Pt K} (ha : At m a pa) (hb : At m b pb) (hc : At m c pc) :
    ∃ n, m.triNormal a b c = some n ∧ n.dot (pb.sub pa) = 0 ∧ n.dot (pc.sub pa) = 0 ∧ (∀ d, n.dot (d.sub pa) = - orient3d pa pb pc d) ∧
      n.norm2 = (pb.sub pa).norm2 * (pc.sub pa).norm2 - (pb.sub pa).dot (pc.sub pa) ^ 2 ∧
      (n = ⟨0, 0, 0⟩ ↔ Parallel (pb.sub pa) (pc.sub pa)) := by
  refine ⟨_, by simp only [Mesh.triNormal, idx_of_At ha, idx_of_At hb, idx_of_At hc, Option.bind_eq_bind, Option.bind_some]; rfl, ?_, ?_, ?_, ?_, ?_⟩
  · simp only [Pt.dot, Pt.sub]; ring
  · simp only [Pt.dot, Pt.sub]; ring
  · intro d
    simp only [Pt.dot, Pt.sub, orient3d, Pt.cross]; ring
  · simp only [Pt.norm2, Pt.dot, Pt.sub]; ring
  · rw [parallel_iff]
    simp only [Pt.cross, Pt.sub, Pt.mk.injEq]
    constructor
    · rintro ⟨h1, h2, h3⟩
      exact ⟨by linear_combination h1, by linear_combination h2, by linear_combination h3⟩
    · rintro ⟨h1, h2, h3⟩
      exact ⟨by linear_combination h1, by linear_combination h2, by linear_combination h3⟩

/-! ### C86: the time until a moving vertex comes upon the boundary of a ball -/

/-- C86: `time_until_not_star_shaped` gives the first time at which the segment from `center` to `target` comes upon a triangle
opposite to the vertex (not counting triangles in whose planes the segment runs); none if it comes upon none of them. -/
theorem C86_time {m : Mesh (Pt K) V T} (hm : Consistent m) (ht : Tiles m) {v v0 v1 : VId} {p0 p1 : Pt K} (hv : Solid m v) (h0 : At m v0 p0)
    (h1 : At m v1 p1) : ∃ r, Settles (fun fuel => m.timeUntilNotStarShaped fuel v v0 v1) (some r) ∧ FirstHit m v v0 v1 p0 p1 r := by
  obtain ⟨r, hs, h⟩ := timeUntil_does hm (ht.star hm v) h0 h1
  cases r with
  | none => exact absurd hv h
  | some r => exact ⟨r, hs, h.2⟩

/-- `ratLong` with another position for the vertex 4. -/
def ratMove (p : Pt ℚ) : Option (Mesh (Pt ℚ) Nat Unit) := ratLong.bind fun m =>
  (m.vertices.insert (Vertex.new invalidWalker p 6)).map fun r => { m with vertices := r.1 }

def ratMoveA : Option (Mesh (Pt ℚ) Nat Unit) := ratMove ⟨0, 3, 0⟩
def ratMoveB : Option (Mesh (Pt ℚ) Nat Unit) := ratMove ⟨0, 2, -1 / 2⟩

theorem ratMove_consistent {p : Pt ℚ} {m : Mesh (Pt ℚ) Nat Unit} (h : ratMove p = some m) : Consistent m := by
  obtain ⟨m0, h1, h2, -⟩ := ratLong_sound
  rw [ratMove, h1, Option.bind_some] at h
  obtain ⟨⟨v1, i1⟩, h5, h4⟩ := Option.map_eq_some_iff.1 h
  rw [← h4]
  exact (h2.consistent.toT.addVertex h5).1.toSpec

theorem ratMoveA_ok : ∃ m, ratMoveA = some m ∧ Consistent m ∧ Tiles m ∧ At m 4 ⟨1, 1, 1⟩ ∧ At m 6 ⟨0, 3, 0⟩ ∧ At m 2 ⟨0, 1, 0⟩ ∧ At m 3 ⟨0, 0, 1⟩ ∧
    At m 5 ⟨21 / 20, 11 / 10, 6 / 5⟩ ∧ HasTet m (4, 3, 2, 5) := by
  have h1 : ratMoveA.isSome = true := by decide +kernel
  obtain ⟨m, h1⟩ := Option.isSome_iff_exists.1 h1
  have hm := ratMove_consistent h1
  have hp := positive_of_check (of_map (f := positiveCheck) h1 (by decide +kernel))
  have ho := offPlanes_of_check (of_map (f := fun m => offPlanesCheck m ⟨1 / 7, 1 / 5, 1 / 3⟩) h1 (by decide +kernel))
  have hl := layers_check (of_map (f := fun m => holdersCheck m ⟨1 / 7, 1 / 5, 1 / 3⟩) (b := [0]) h1 (by decide +kernel)) (by decide)
  have at' : ∀ v p, v ≠ GHOST → ratMoveA.map (fun m => (m.vertices.get v).map fun x => x.position) = some (some p) → At m v p := fun v p hv h =>
    ⟨hv, Option.map_eq_some_iff.1 (of_map (f := fun m => (m.vertices.get v).map fun x => x.position) (b := some p) h1 h)⟩
  exact ⟨m, h1, hm, (C75_criterion hm hp ho).2 hl, at' 4 _ (by decide) (by decide +kernel), at' 6 _ (by decide) (by decide +kernel),
    at' 2 _ (by decide) (by decide +kernel), at' 3 _ (by decide) (by decide +kernel), at' 5 _ (by decide) (by decide +kernel),
    ⟨⟨10, 3⟩, of_map (f := fun m => m.tet4 ⟨10, 3⟩) h1 (by decide +kernel)⟩⟩

theorem ratMoveB_ok : ∃ m, ratMoveB = some m ∧ Consistent m ∧ Tiles m ∧ At m 4 ⟨1, 1, 1⟩ ∧ At m 6 ⟨0, 2, -1 / 2⟩ ∧ At m 2 ⟨0, 1, 0⟩ ∧
    At m 3 ⟨0, 0, 1⟩ ∧ At m 5 ⟨21 / 20, 11 / 10, 6 / 5⟩ ∧ HasTet m (4, 3, 2, 5) := by
  have h1 : ratMoveB.isSome = true := by decide +kernel
  obtain ⟨m, h1⟩ := Option.isSome_iff_exists.1 h1
  have hm := ratMove_consistent h1
  have hp := positive_of_check (of_map (f := positiveCheck) h1 (by decide +kernel))
  have ho := offPlanes_of_check (of_map (f := fun m => offPlanesCheck m ⟨1 / 7, 1 / 5, 1 / 3⟩) h1 (by decide +kernel))
  have hl := layers_check (of_map (f := fun m => holdersCheck m ⟨1 / 7, 1 / 5, 1 / 3⟩) (b := [0]) h1 (by decide +kernel)) (by decide)
  have at' : ∀ v p, v ≠ GHOST → ratMoveB.map (fun m => (m.vertices.get v).map fun x => x.position) = some (some p) → At m v p := fun v p hv h =>
    ⟨hv, Option.map_eq_some_iff.1 (of_map (f := fun m => (m.vertices.get v).map fun x => x.position) (b := some p) h1 h)⟩
  exact ⟨m, h1, hm, (C75_criterion hm hp ho).2 hl, at' 4 _ (by decide) (by decide +kernel), at' 6 _ (by decide) (by decide +kernel),
    at' 2 _ (by decide) (by decide +kernel), at' 3 _ (by decide) (by decide +kernel), at' 5 _ (by decide) (by decide +kernel),
    ⟨⟨10, 3⟩, of_map (f := fun m => m.tet4 ⟨10, 3⟩) h1 (by decide +kernel)⟩⟩

/-- C86, negation: the time is said to be the one "that `center` has to travel toward `target` to not be star-shaped".  But the
tets at the vertex are inverted as soon as it goes through the plane of a triangle, also beside the triangle.  There is a mesh
filling space with a vertex for which the function gives a time, while half of this time, which the program uses, inverts a
solid tet; ... -/
theorem C86_too_late : ∃ (m : Mesh (Pt ℚ) Nat Unit) (p0 p1 a b c : Pt ℚ) (t : ℚ), Consistent m ∧ Tiles m ∧ At m 4 p0 ∧ At m 6 p1 ∧
    m.timeUntilNotStarShaped 60 4 4 6 = some (some t) ∧ HasTet m (4, 3, 2, 5) ∧ At m 3 a ∧ At m 2 b ∧ At m 5 c ∧
    0 < orient3d p0 a b c ∧ orient3d (along p0 p1 (t / 2)) a b c < 0 := by
  obtain ⟨m, h1, h2, h3, k4, k6, k2, k3, k5, ht⟩ := ratMoveA_ok
  refine ⟨m, _, _, _, _, _, 49 / 109, h2, h3, k4, k6, of_map (f := fun m => m.timeUntilNotStarShaped 60 4 4 6) h1 (by decide +kernel), ht, k3, k2, k5, ?_, ?_⟩
  · decide +kernel
  · decide +kernel

/-- ... and one for which the function gives no time, although a solid tet is inverted on the way to the target. -/
theorem C86_never : ∃ (m : Mesh (Pt ℚ) Nat Unit) (p0 p1 a b c : Pt ℚ), Consistent m ∧ Tiles m ∧ At m 4 p0 ∧ At m 6 p1 ∧
    m.timeUntilNotStarShaped 60 4 4 6 = some none ∧ HasTet m (4, 3, 2, 5) ∧ At m 3 a ∧ At m 2 b ∧ At m 5 c ∧
    0 < orient3d p0 a b c ∧ orient3d p1 a b c < 0 := by
  obtain ⟨m, h1, h2, h3, k4, k6, k2, k3, k5, ht⟩ := ratMoveB_ok
  refine ⟨m, _, _, _, _, _, h2, h3, k4, k6, of_map (f := fun m => m.timeUntilNotStarShaped 60 4 4 6) h1 (by decide +kernel), ht, k3, k2, k5, ?_, ?_⟩
  · decide +kernel
  · decide +kernel

/-! ### C87: intersections with several triangles -/

/-- C87: `tris_intersections` comes to an end without panic and gives different edges of the mesh, each with a point that is in
one of the closed triangles and in the closed edge, or the edge is in the plane of one of the triangles. -/
theorem C87_found {m : Mesh (Pt K) V T} (hm : Consistent m) (ht : Tiles m) {tris : List V3} (hp : SolidTris m tris) {s : VId × VId}
    (hs : HasEdge m s.1 s.2) (hg : s.1 ≠ GHOST) : ∃ l, Settles (fun fuel => m.trisPoints fuel tris s) (some l) ∧ TrisFound m tris l := by
  obtain ⟨r, h1, l, rfl, h2⟩ := trisPoints_does hm ht hp hs hg
  exact ⟨l, h1, h2⟩

/-- C87, negation: "make sure vertices of tris don't count as intersections".  They do if the coordinates are negative, because
`&&` binds stronger than `||`: for a triangle of the mesh, from one side, there is nothing, but from the other side there are
the edges at the vertices of the triangle, with these vertices as points. -/
theorem C87_own : ∃ m : Mesh (Pt ℚ) Nat Unit, ratLong = some m ∧ Sound m ∧ HasTri m (1, 2, 3) ∧ HasTri m (3, 2, 1) ∧
    m.trisPoints 60 [(1, 2, 3)] (1, 2) = some [] ∧ ∃ l, m.trisPoints 60 [(3, 2, 1)] (1, 2) = some (((4, 3), ⟨0, 0, 1⟩) :: l) ∧ At m 3 ⟨0, 0, 1⟩ := by
  obtain ⟨m, h1, h2, h3, -⟩ := ratLong_sound
  refine ⟨m, h1, h2, ⟨⟨0, 8⟩, of_map (f := fun m => m.tri ⟨0, 8⟩) h1 (by decide +kernel)⟩, ?_, of_map (f := fun m => m.trisPoints 60 [(1, 2, 3)] (1, 2)) h1 (by decide +kernel),
    _, of_map (f := fun m => m.trisPoints 60 [(3, 2, 1)] (1, 2)) (b := some [((4, 3), ⟨0, 0, 1⟩), ((3, 2), ⟨0, 0, 1⟩), ((1, 3), ⟨0, 0, 1⟩),
      ((3, 0), ⟨0, 0, 1⟩), ((GHOST, 1), ⟨1, 0, 0⟩), ((1, 2), ⟨0, 0, 1⟩)]) h1 (by decide +kernel), ?_⟩
  · have h := of_map (f := fun m => (List.finRange 12).any fun c => m.tri ⟨7, c⟩ == some (3, 2, 1)) (b := true) h1 (by decide +kernel)
    simp only [List.any_eq_true, beq_iff_eq] at h
    obtain ⟨c, -, h⟩ := h
    exact ⟨_, h⟩
  · exact ⟨by decide, Option.map_eq_some_iff.1 (of_map (f := fun m => (m.vertices.get 3).map fun x => x.position) (b := some ⟨0, 0, 1⟩) h1 (by decide +kernel))⟩

/-! ### Examples -/

/-- All hypotheses of C83; the edge from 4 to the ghost vertex goes through the triangle. -/
example : ∃ m : Mesh (Pt ℚ) Nat Unit, ratDent = some m ∧ Consistent m ∧ Tiles m ∧ NoFlat m ∧ (Solid m 1 ∧ Solid m 2 ∧ Solid m 3) ∧
    (∀ e ∈ triEdges (1, 2, 3), HasEdge m e.1 e.2) ∧ m.triPoints 60 (1, 2, 3) = some [((GHOST, 4), ⟨121 / 380, 13 / 38, 129 / 380⟩)] := by
  obtain ⟨m, h1, h2, h3, h4, -, -, -, h7, h8, -⟩ := ratDent_ok
  exact ⟨m, h1, h2, h3, h4, h7.1, h8, of_map (f := fun m => m.triPoints 60 (1, 2, 3)) h1 (by decide +kernel)⟩

/-- All hypotheses of C84 and C85: a tet, a point near it, and the ghost tet at a side. -/
example : ∃ m : Mesh (Pt ℝ) Nat Unit, At m 0 ⟨0, 0, 0⟩ ∧ At m 1 ⟨1, 0, 0⟩ ∧ At m 2 ⟨0, 0, 1⟩ ∧ At m 3 ⟨0, 1, 0⟩ ∧
    0 < orient3d (⟨0, 0, 0⟩ : Pt ℝ) ⟨1, 0, 0⟩ ⟨0, 0, 1⟩ ⟨0, 1, 0⟩ ∧ InClosedTet (⟨0, 0, 0⟩ : Pt ℝ) ⟨1, 0, 0⟩ ⟨0, 0, 1⟩ ⟨0, 1, 0⟩ ⟨0, 0, 0⟩ ∧
    orient3d (⟨0, 0, 0⟩ : Pt ℝ) ⟨0, 0, 1⟩ ⟨1, 0, 0⟩ m.center < 0 := by
  classical
  obtain ⟨m, -, -, -, -, -, h, -⟩ := C14_new (fun a b c d => decide (0 < orient3d a b c d)) Pt.centroid4 (⟨0, 0, 0⟩ : Pt ℝ)
    (⟨0, 0, 0⟩, 0) (⟨1, 0, 0⟩, 1) (⟨0, 0, 1⟩, 2) (⟨0, 1, 0⟩, 3) ()
  have at' : ∀ i : Fin 4, At { m with center := ⟨1 / 5, 1 / 5, 1 / 5⟩ } i.val ((![(⟨0, 0, 0⟩, 0), (⟨1, 0, 0⟩, 1), (⟨0, 0, 1⟩, 2), (⟨0, 1, 0⟩, 3)] :
      Fin 4 → Pt ℝ × Nat) i).1 := by
    intro i
    obtain ⟨x, h1, h2⟩ := h i
    exact ⟨by have := i.2; simp only [GHOST, idMax]; omega, x, h1, congrArg Prod.fst h2⟩
  refine ⟨{ m with center := ⟨1 / 5, 1 / 5, 1 / 5⟩ }, at' 0, at' 1, at' 2, at' 3, ?_, ⟨1, 0, 0, 0, by norm_num, by norm_num, by norm_num, by norm_num,
    by norm_num, ?_⟩, ?_⟩
  · norm_num [orient3d, Pt.sub, Pt.dot, Pt.cross]
  · norm_num [comb, Pt.add, Pt.smul]
  · norm_num [orient3d, Pt.sub, Pt.dot, Pt.cross]

/-- All hypotheses of C86 and C87; there is a time, and the triangle is crossed by edges. -/
example : ∃ m : Mesh (Pt ℚ) Nat Unit, ratMoveA = some m ∧ Consistent m ∧ Tiles m ∧ Solid m 4 ∧ At m 4 ⟨1, 1, 1⟩ ∧ At m 6 ⟨0, 3, 0⟩ ∧
    m.timeUntilNotStarShaped 60 4 4 6 = some (some (49 / 109)) ∧ SolidTris m [(2, 3, 4), (2, 5, 3)] ∧ HasEdge m 2 3 := by
  obtain ⟨m, h1, h2, h3, k4, k6, k2, k3, k5, ht⟩ := ratMoveA_ok
  obtain ⟨w, hw⟩ := ht
  refine ⟨m, h1, h2, h3, ⟨⟨w, (tet4_parts hw).1⟩, by decide⟩, k4, k6, of_map (f := fun m => m.timeUntilNotStarShaped 60 4 4 6) h1 (by decide +kernel), ?_, ?_⟩
  · intro t ht
    simp only [List.mem_cons, List.not_mem_nil, or_false] at ht
    rcases ht with rfl | rfl
    · refine ⟨by decide, fun v hv => ?_⟩
      simp only [List.mem_cons, List.not_mem_nil, or_false] at hv
      rcases hv with rfl | rfl | rfl
      exacts [⟨_, k2⟩, ⟨_, k3⟩, ⟨_, k4⟩]
    · refine ⟨by decide, fun v hv => ?_⟩
      simp only [List.mem_cons, List.not_mem_nil, or_false] at hv
      rcases hv with rfl | rfl | rfl
      exacts [⟨_, k2⟩, ⟨_, k5⟩, ⟨_, k3⟩]
  · exact h2.toT.hasEdge_tet.2 ⟨5, 4, HasTet.same ⟨w, hw⟩ (mem_twelve.1 (by simp [twelve]))⟩

end Tet
