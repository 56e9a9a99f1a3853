import Verif.Props.General
import Verif.Proofs.SteinerPath

/-!
# C80, C81, C82: Steiner points
-/

namespace Tet
open Spec
variable {K V T : Type} [Field K] [LinearOrder K] [IsStrictOrderedRing K]

/-- C80: putting a Steiner point strictly inside an edge or triangle of a mesh that fills space, as
`recover_edge_with_steiner_points` does, panics exactly if the edge or a triangle at it, or the triangle, is locked; otherwise the
mesh still fills space, with the point as a new vertex that is joined to the corners of the element. -/
theorem C80_insert {m : Mesh (Pt K) V T} (hs : Sound m) {g : EdgeOrTri} {p : Pt K} (hg : Present m g) (ha : Amid m (corners g) p)
    (hf : Findable m g) (hr : EnoughIds m) {v0 : VId} {x0 : Vertex (Pt K) V} (h0 : m.vertices.get v0 = some x0) :
    (Unsplittable m g → Settles (m.insertSteiner · v0 g p) none) ∧
    (¬ Unsplittable m g → ∃ m' s, Settles (m.insertSteiner · v0 g p) (some (m', s)) ∧ Split m m' g s p x0.value) := by
  obtain ⟨r, hN, ⟨rfl, h⟩ | ⟨m', s, rfl, h1, h2⟩⟩ := insert_split hs hg ha h0
  · refine ⟨fun _ => hN, fun hu => ?_⟩
    rcases h with h | h | h
    · exact absurd h hu
    · exact absurd hf h
    · exact absurd hr h
  · exact ⟨fun hu => absurd hu h1, fun _ => ⟨m', s, hN, h2⟩⟩

/-- C81: `edge_intersections` gives a trail of elements (C67) with points that are strictly inside the segment and strictly
inside the elements. -/
theorem C81_points {m : Mesh (Pt K) V T} (hm : Consistent m) (steps : Nat) {v0 v1 : VId} {p0 p1 : Pt K} (h0 : At m v0 p0)
    (h1 : At m v1 p1) : Does (fun fuel => m.edgePoints fuel steps v0 v1) (PointsFound m steps v0 v1 p0 p1) :=
  edgePoints_does hm steps h0 h1

/-- C81: in general position, these are the points where the segment crosses triangles, strictly ordered from the first vertex
to the second. -/
theorem C81_order {m : Mesh (Pt K) V T} (hm : Consistent m) (ht : Tiles m) (hf : NoFlat m) {v0 v1 : VId} {p0 p1 : Pt K}
    (h0 : At m v0 p0) (h1 : At m v1 p1) (i0 : InMesh m v0) (i1 : InMesh m v1) (hv : v0 ≠ v1) {n steps : Nat}
    (hn : m.numTets = some n) (hsteps : 12 * n ≤ steps) :
    ∃ l : List (V3 × K), Settles (fun fuel => m.edgePoints fuel steps v0 v1) (some (l.map fun x => (.tri x.1, along p0 p1 x.2))) ∧
      InTheWay m v0 v1 (l.map Prod.fst) ∧ (0 :: l.map Prod.snd ++ [1]).IsChain (· < ·) ∧
      ∀ x ∈ l, Amid m (corners (.tri x.1)) (along p0 p1 x.2) :=
  edgePoints_order hm ht hf h0 h1 i0 i1 hv hn hsteps

/-- C81: `edge_mid_intersection` gives one of the intersections, and `None` only if there is none. -/
theorem C81_mid {m : Mesh (Pt K) V T} (hm : Consistent m) (steps : Nat) {v0 v1 : VId} {p0 p1 : Pt K} (h0 : At m v0 p0)
    (h1 : At m v1 p1) : Does (fun fuel => m.edgeMidIntersection fuel steps v0 v1) (MidFound m steps v0 v1 p0 p1) :=
  edgeMid_does hm steps h0 h1

/-- C82: `recover_edge_with_steiner_points` in a mesh that fills space.  If it returns, then the returned vertices are new, they
are on the segment in the order in which they are returned, the pieces of the segment are locked edges, and the mesh still fills
space.  `SteinerFails` says when it panics or does not end. -/
theorem C82_recover {m : Mesh (Pt K) V T} (hs : Sound m) (steps depth : Nat) {v0 v1 : VId} {p0 p1 : Pt K} {y : Vertex (Pt K) V}
    (h0 : At m v0 p0) (h1 : At m v1 p1) (hy : m.vertices.get v0 = some y) :
    Does (fun fuel => Mesh.recoverEdgeWithSteiner fuel steps depth (v0, v1) m) fun r =>
      (r = none ∧ SteinerFails steps depth v0 v1 m) ∨ ∃ m' l, r = some (m', l) ∧ Chained m m' v0 v1 p0 p1 y.value l :=
  recoverSteiner_does steps depth m hs h0 h1 ⟨y, hy, rfl⟩

/-! ### Examples -/

/-- `ratOff` with another vertex outside of the triangle 2, 3, 4. -/
def ratLong : Option (Mesh (Pt ℚ) Nat Unit) := (ratOff.bind fun m =>
  (m.vertices.insert (Vertex.new invalidWalker ⟨21 / 20, 11 / 10, 6 / 5⟩ 5)).map fun r => { m with vertices := r.1 }).bind fun m =>
  (m.flip14Unchecked (Mesh.walkerFromTetId 1) 5).map (·.1)

def ratLongV : Option (Mesh (Pt ℚ) Nat Unit) := ratOff.bind fun m =>
  (m.vertices.insert (Vertex.new invalidWalker ⟨21 / 20, 11 / 10, 6 / 5⟩ 5)).map fun r => { m with vertices := r.1 }

theorem ratLong_sound : ∃ m, ratLong = some m ∧ Sound m ∧ NoFlat m ∧ m.numTets = some 11 := by
  obtain ⟨m, h1, h2, -⟩ := ratOff_tiles
  have h3 : ratLongV.isSome = true := by decide +kernel
  obtain ⟨m1, h3⟩ := Option.isSome_iff_exists.1 h3
  have hc1 : Consistent m1 := by
    have h4 := h3
    rw [ratLongV, h1, Option.bind_some] at h4
    obtain ⟨⟨v1, i1⟩, h5, h4⟩ := Option.map_eq_some_iff.1 h4
    rw [← h4]
    exact (h2.toT.addVertex h5).1.toSpec
  obtain ⟨m', _, _, _, _, h4, h5, -⟩ := C18_flip14 hc1 (k := 1) (v := 5)
    (of_map (f := fun m => m.tet4 (Mesh.walkerFromTetId 1)) (b := some (4, 3, 2, GHOST)) h3 (by decide +kernel))
    (fun h => by
      have := of_map (f := fun m => (m.vertices.get 5).isSome) (b := true) h3 (by decide +kernel)
      simp [h] at this)
    (first_of_check (of_map (f := fun m => noVertex m 5) h3 (by decide +kernel)))
    (of_map (f := fun m => m.numTets) (b := some 8) h3 (by decide +kernel))
    (of_map (f := fun m => m.numEdges) (b := some 14) h3 (by decide +kernel)) (by decide) (by decide)
  have h6 : ratLong = some m' := by
    rw [ratLong, show (ratOff.bind fun m => (m.vertices.insert (Vertex.new invalidWalker ⟨21 / 20, 11 / 10, 6 / 5⟩ 5)).map fun r =>
      { m with vertices := r.1 }) = some m1 from h3, Option.bind_some, h4]
    rfl
  have hp := positive_of_check (of_map (f := positiveCheck) h6 (by decide +kernel))
  have ho := offPlanes_of_check (of_map (f := fun m => offPlanesCheck m ⟨1 / 7, 1 / 5, 1 / 3⟩) h6 (by decide +kernel))
  have hl := layers_check (of_map (f := fun m => holdersCheck m ⟨1 / 7, 1 / 5, 1 / 3⟩) (b := [0]) h6 (by decide +kernel)) (by decide)
  exact ⟨m', h6, ⟨h5, (C75_criterion h5 hp ho).2 hl, tidy_of_check (of_map (f := tidyCheck) h6 (by decide +kernel)),
    unmarked_of_check (of_map (f := unmarkedCheck) h6 (by decide +kernel))⟩,
    noFlat_of_check (of_map (f := noFlatCheck) h6 (by decide +kernel)), of_map (f := fun m => m.numTets) h6 (by decide +kernel)⟩

theorem ratLong_at {m : Mesh (Pt ℚ) Nat Unit} (h : ratLong = some m) : At m 0 ⟨0, 0, 0⟩ ∧ At m 5 ⟨21 / 20, 11 / 10, 6 / 5⟩ ∧
    InMesh m 0 ∧ InMesh m 5 :=
  ⟨⟨by decide, Option.map_eq_some_iff.1 (of_map (f := fun m => (m.vertices.get 0).map fun x => x.position) (b := some ⟨0, 0, 0⟩) h
      (by decide +kernel))⟩,
    ⟨by decide, Option.map_eq_some_iff.1 (of_map (f := fun m => (m.vertices.get 5).map fun x => x.position) (b := some ⟨21 / 20, 11 / 10, 6 / 5⟩) h
      (by decide +kernel))⟩,
    ⟨⟨0, 3⟩, of_map (f := fun m => m.first ⟨0, 3⟩) h (by decide +kernel)⟩,
    ⟨⟨1, 3⟩, of_map (f := fun m => m.first ⟨1, 3⟩) h (by decide +kernel)⟩⟩

/-- All hypotheses of C81 and C82; the segment crosses two triangles. -/
example : ∃ m : Mesh (Pt ℚ) Nat Unit, ratLong = some m ∧ Sound m ∧ NoFlat m ∧ m.numTets = some 11 ∧ At m 0 ⟨0, 0, 0⟩ ∧
    At m 5 ⟨21 / 20, 11 / 10, 6 / 5⟩ ∧ InMesh m 0 ∧ InMesh m 5 ∧
    m.edgePoints 60 200 0 5 = some [(.tri (2, 3, 1), along ⟨0, 0, 0⟩ ⟨21 / 20, 11 / 10, 6 / 5⟩ (20 / 67)),
      (.tri (2, 3, 4), along ⟨0, 0, 0⟩ ⟨21 / 20, 11 / 10, 6 / 5⟩ (4 / 5))] ∧
    ((Mesh.recoverEdgeWithSteiner 60 200 3 (0, 5) m).map fun r => r.2) = some [6] := by
  obtain ⟨m, h1, h2, h3, h4⟩ := ratLong_sound
  obtain ⟨k1, k2, k3, k4⟩ := ratLong_at h1
  exact ⟨m, h1, h2, h3, h4, k1, k2, k3, k4, of_map (f := fun m => m.edgePoints 60 200 0 5) h1 (by decide +kernel),
    of_map (f := fun m => (Mesh.recoverEdgeWithSteiner 60 200 3 (0, 5) m).map fun r => r.2) h1 (by decide +kernel)⟩

/-- The square of the distance. -/
def Spec.dist2 (p q : Pt K) : K := (p.x - q.x) ^ 2 + (p.y - q.y) ^ 2 + (p.z - q.z) ^ 2

/-- C81, negation: `edge_mid_intersection` says that it gets the intersection closest to the midpoint of the edge.  It compares
the coordinates of the intersections without dividing them by their sums; so the intersection may be farther away than another
one. -/
theorem C81_not_closest : ∃ (m : Mesh (Pt ℚ) Nat Unit) (p0 p1 : Pt ℚ) (g g' : EdgeOrTri) (p p' : Pt ℚ), Sound m ∧ NoFlat m ∧
    At m 0 p0 ∧ At m 5 p1 ∧ m.edgePoints 60 200 0 5 = some [(g', p'), (g, p)] ∧ m.edgeMidIntersection 60 200 0 5 = some (some (g, p)) ∧
    dist2 p' (along p0 p1 (1 / 2)) < dist2 p (along p0 p1 (1 / 2)) := by
  obtain ⟨m, h1, h2, h3, -⟩ := ratLong_sound
  obtain ⟨k1, k2, -⟩ := ratLong_at h1
  refine ⟨m, _, _, .tri (2, 3, 4), .tri (2, 3, 1), along ⟨0, 0, 0⟩ ⟨21 / 20, 11 / 10, 6 / 5⟩ (4 / 5),
    along ⟨0, 0, 0⟩ ⟨21 / 20, 11 / 10, 6 / 5⟩ (20 / 67), h2, h3, k1, k2,
    of_map (f := fun m => m.edgePoints 60 200 0 5) h1 (by decide +kernel),
    of_map (f := fun m => m.edgeMidIntersection 60 200 0 5) h1 (by decide +kernel), ?_⟩
  simp only [dist2, along]
  norm_num

/-- All hypotheses of C80; the triangle between two tets is not locked. -/
example : ∃ (m : Mesh (Pt ℚ) Nat Unit) (g : EdgeOrTri) (p : Pt ℚ), Sound m ∧ Present m g ∧ Amid m (corners g) p ∧ Findable m g ∧
    EnoughIds m ∧ (∃ x0, m.vertices.get 0 = some x0) ∧ ¬ Unsplittable m g := by
  obtain ⟨m, h1, h2, h3, h4⟩ := ratLong_sound
  obtain ⟨k1, k2, -⟩ := ratLong_at h1
  obtain ⟨x0, hx⟩ := Option.isSome_iff_exists.1 (of_map (f := fun m => (m.vertices.get 0).isSome) (b := true) h1 (by decide +kernel))
  have hq := of_map (f := fun m => m.tet4 ⟨0, 8⟩) (b := some (1, 2, 3, 0)) h1 (by decide +kernel)
  refine ⟨m, .tri (1, 2, 3), ⟨1 / 3, 1 / 3, 1 / 3⟩, h2, ?_, ⟨fun _ => 1 / 3, fun v => if v = 1 then ⟨1, 0, 0⟩ else if v = 2 then ⟨0, 1, 0⟩ else ⟨0, 0, 1⟩,
    ?_, ?_⟩, Or.inl (by decide), ?_, ⟨x0, hx⟩, ?_⟩
  · exact ⟨⟨0, 8⟩, (tet4_parts hq).2.2.2⟩
  · have e1 := of_map (f := fun m => m.idxOri 1) (b := some ⟨1, 0, 0⟩) h1 (by decide +kernel)
    have e2 := of_map (f := fun m => m.idxOri 2) (b := some ⟨0, 1, 0⟩) h1 (by decide +kernel)
    have e3 := of_map (f := fun m => m.idxOri 3) (b := some ⟨0, 0, 1⟩) h1 (by decide +kernel)
    intro v hv
    simp only [corners, List.mem_cons, List.not_mem_nil, or_false] at hv
    rcases hv with rfl | rfl | rfl
    · exact ⟨by norm_num, e1⟩
    · exact ⟨by norm_num, e2⟩
    · exact ⟨by norm_num, e3⟩
  · decide +kernel
  · exact ⟨6, 18, 11, of_map (f := Mesh.numVertices) h1 (by decide +kernel), of_map (f := Mesh.numEdges) h1 (by decide +kernel),
      h4, by decide, by decide, by decide⟩
  · rintro ⟨w, h6, h7⟩
    obtain ⟨t, ht, -⟩ := Mesh.tri_iff.1 h6
    have := List.all_eq_true.1 (of_map (f := fun m => m.tets.keys.all fun k => (List.finRange 12).all fun e =>
      decide (m.triLocked ⟨k, e⟩ ≠ some true)) (b := true) h1 (by decide +kernel)) w.tet (IdMap.mem_keys.2 (by simp [ht]))
    exact of_decide_eq_true (List.all_eq_true.1 this w.edge (List.mem_finRange _)) h7

end Tet
