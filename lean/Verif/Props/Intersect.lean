import Verif.Proofs.Intersect

/-!
# C67, C68: the intersections of an edge or a triangle with the mesh
-/

namespace Tet
open Spec
variable {K V T : Type} [Field K] [LinearOrder K] [IsStrictOrderedRing K]

/-! ## C67 -/

/-- C67: the result of `edge_intersections_raw` does not depend on the bounds of the loops over walkers, once they are
large enough, and is a trail along the edge that cannot be continued.  If there is no result, a vertex is missing, or
there is a trail with more than `steps` elements. -/
theorem C67_trail {m : Mesh (Pt K) V T} (hm : Consistent m) (steps : Nat) (v0 v1 : VId) :
    ∃ r, Settles (fun fuel => (m.edgeIntersections fuel steps v0 v1).map (·.map fun x => x.2.other)) r ∧
      EdgeInters m steps v0 v1 r :=
  edgeIntersections_does hm steps v0 v1

/-- C67: everything that is listed crosses the edge, and neither panics nor endless loops happen if all trails have at
most `steps` elements. -/
theorem C67_total {m : Mesh (Pt K) V T} (hm : Consistent m) {steps : Nat} {v0 v1 : VId} (h0 : Solid m v0) (h1 : Placed m v1)
    (hl : ∀ l, Trail m v0 v1 l → l.length ≤ steps) :
    ∃ l, Settles (fun fuel => (m.edgeIntersections fuel steps v0 v1).map (·.map fun x => x.2.other)) (some l) ∧
      (∀ g ∈ l, CrossedBy m v0 v1 g) ∧ (l = [] → EndsAtStart m v0 v1) := by
  obtain ⟨r, h2, h3⟩ := C67_trail hm steps v0 v1
  cases r with
  | none =>
    rcases h3 with h | h | ⟨l, h4, h5⟩
    · exact absurd h0 h
    · exact absurd h1 h
    · have := hl l h4
      omega
  | some l => exact ⟨l, h2, h3.1.crossed, h3.2.1⟩

/-- The edge from 0 to 4 runs through the triangle between the two tets. -/
example : ∃ m, ratA = some m ∧ Consistent m ∧ Solid m 0 ∧ Placed m 4 ∧
    ((m.edgeIntersections 40 5 0 4).map (·.map fun x => x.2.other)) = some [.tri (2, 3, 1)] := by
  obtain ⟨m, h1, h2, -⟩ := ratA_ok
  obtain ⟨w, hw⟩ := (ratA_shows h1 (0, 1, 3, 2)).2 (by decide +kernel)
  refine ⟨m, h1, h2, ⟨⟨w, (tet4_parts hw).1⟩, by decide⟩, .inr fun h => ?_, ?_⟩
  · have := of_map (f := fun m => (m.vertices.get 4).isSome) (b := true) h1 (by decide +kernel)
    simp [h] at this
  · exact of_map (f := fun m => (m.edgeIntersections 40 5 0 4).map (·.map fun x => x.2.other))
      (b := some [.tri (2, 3, 1)]) h1 (by decide +kernel)

/-! ## C68 -/

/-- C68: `tri_intersections_raw` ends, and lists different edges that cross the triangle: one that is opposite to its
first edge, and all that can be reached from that one over triangles of the mesh. -/
theorem C68_edges {m : Mesh (Pt K) V T} (hm : Consistent m) (t : V3) :
    ∃ r, Settles (fun fuel => (m.triIntersections fuel t).map (·.map (·.edge))) r ∧ TriInters m t r :=
  triIntersections_does hm t

/-- C68: every edge that crosses and can be reached from a listed one, over triangles with two edges that cross, is
listed. -/
theorem C68_reach {m : Mesh (Pt K) V T} {t : V3} {l : List (VId × VId)} (h : TriInters m t (some l)) {e f : VId × VId}
    (he : e ∈ l) (hr : Relation.ReflTransGen (fun e f => Neighbours m e f ∧ CrossesTri m t f) e f) :
    sorted2 f ∈ l.map sorted2 := by
  have swap : ∀ {e e' f : VId × VId}, sorted2 e = sorted2 e' → Neighbours m e f → Neighbours m e' f := by
    rintro ⟨a, b⟩ ⟨c, d⟩ f hs ⟨x, y, z, h1, h2, h3⟩
    refine ⟨x, y, z, h1, ?_, h3⟩
    rcases sorted2_cases a b with ⟨k1, -⟩ | ⟨k1, -⟩ <;> rcases sorted2_cases c d with ⟨k2, -⟩ | ⟨k2, -⟩ <;>
      rw [k1, k2] at hs <;> cases hs <;> simp only [Prod.mk.injEq] at h2 ⊢ <;> tauto
  induction hr with
  | refl => exact List.mem_map_of_mem he
  | tail _ h1 ih =>
    obtain ⟨e', h2, h3⟩ := List.mem_map.1 ih
    exact h.2.2.2.2.1 e' h2 _ (swap h3.symm h1.1) h1.2

/-- The mesh after removing the triangle: three tets around the edge from 0 to 4. -/
def ratB : Option (Mesh (Pt ℚ) Nat Unit) := ratA.bind fun m =>
  (m.progressTri exTests 40 1 ⟨0, 8⟩ [] []).map (·.1.mesh)

/-- The triangle (1, 2, 3) is crossed by the edge. -/
example : (ratB.bind fun m => (m.triIntersections 40 (1, 2, 3)).map (·.map (·.edge))) = some [(4, 0)] := by
  decide +kernel

/-- The searches are as the functions that recover edges and triangles need them. -/
theorem C67_search (sim : VId → VId → VId → VId → Bool) (steps : Nat) :
    GoodSearch (Mesh.exactTests sim steps : RecoverTests (Pt K) V T) :=
  goodSearch sim steps

end Tet
