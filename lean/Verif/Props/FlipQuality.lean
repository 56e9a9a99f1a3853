import Verif.Proofs.FlipQuality
import Verif.Props.FlipLaws
import Verif.Props.Geo

/-!
# C58: quality flipping

`flip_quality` works through a queue of edges and triangles and performs every flip that makes the worst of the tets
concerned better.
-/

namespace Tet
open Spec
variable {P V T K : Type} [LinearOrder K]

/-- `flip_quality` on a consistent mesh whose triangle index is tracked or empty ends after finitely many rounds and
is then a sequence of improving flips of unlocked elements - unless, after some of these flips, an improving flip
would have to add an edge or a triangle that the mesh has already (impossible for tets in space that do not
overlap), or the ids are exhausted.  Without the index there are 3-to-2 flips only. -/
theorem C58_run {quality : Mesh P V T → V4 → K} {m : Mesh P V T} (hm : Consistent m) (hg : GoodQuality quality m)
    (hi : m.trackTriMap = true ∨ ∀ s, m.triMap s = none) :
    (∃ m1, QualityRun quality m m1 ∧ QualityStuck quality m1) ∨
    ∃ N m', QualityRun quality m m' ∧ ∀ fuel ≥ N, m.flipQuality quality fuel = some m' :=
  flipQuality_run hm.toT hi hg

/-- What such a sequence keeps: the mesh is consistent; vertices and locks are the same; any lower bound for the
quality of all tets stays one; without the index no edge is added. -/
theorem C58_keeps {quality : Mesh P V T → V4 → K} {m m' : Mesh P V T} (hm : Consistent m) (hg : GoodQuality quality m)
    (h : QualityRun quality m m') :
    Consistent m' ∧ SameVertices m m' ∧ SameLocks m m' ∧ FlipSteps m m' ∧
    (∀ k, (∀ p, HasTet m p → k ≤ quality m p) → ∀ p, HasTet m' p → k ≤ quality m' p) ∧
    (m.trackTriMap = false → ∀ a b, HasEdge m' a b → HasEdge m a b) := by
  obtain ⟨h1, h2, h3, h4, h5, h6⟩ := qualityRun_keeps hm.toT hg h
  exact ⟨h1.toSpec, h2, h3, h4, h6, h5⟩

section Real
variable {K : Type} [Field K] [LinearOrder K] [IsStrictOrderedRing K]

theorem sameVertices_idxOri {m m' : Mesh (Pt K) V T} (h : SameVertices m m') : m'.idxOri = m.idxOri := by
  funext v
  have h1 := congrArg (Option.map fun x => x.1) (h.1 v)
  simp only [Option.map_map] at h1
  simp only [Mesh.idxOri, Mesh.idx, h.2.1]
  split_ifs
  · rfl
  · exact h1

/-- The quality function of the program, with an orientation test that depends on the positions of the vertices. -/
def meshQuality (norm : Pt K → K) (sim : (VId → Option (Pt K)) → VId → VId → VId → VId → Bool) (nan : Pt K → Bool)
    (m : Mesh (Pt K) V T) (p : V4) : WithTop K :=
  (m.quality norm (sim m.idxOri) (nan m.center) p.1 p.2.1 p.2.2.1 p.2.2.2).getD ⊤

/-- It is good in the sense above. -/
theorem C58_quality {norm : Pt K → K} {sim : (VId → Option (Pt K)) → VId → VId → VId → VId → Bool}
    {nan : Pt K → Bool} {m : Mesh (Pt K) V T} (hsim : IsSim m.idxOri (sim m.idxOri)) :
    GoodQuality (meshQuality norm sim nan) m := by
  constructor
  · intro m' h p
    have h1 := sameVertices_idxOri h
    unfold meshQuality Mesh.quality
    rw [h1, h.2.1]
  · intro a b c d q hn hs
    obtain ⟨a', b', c', d'⟩ := q
    have hi : Function.Injective (quad (a, b, c, d)) := (nodup4 (quad (a, b, c, d))).1 hn
    have hk := (C08_key_canonical _ _ hi).2 hs
    unfold meshQuality Mesh.quality
    simp only
    rw [sim_same hsim hn hs, hk]
    simp only [ghost_same hs]

end Real

/-! ## Examples -/

/-- Tets with the vertex 4 and the ghost vertex and without `v` are good. -/
def good4 (v : VId) : Mesh Nat Nat Unit → V4 → Nat := fun _ q =>
  if 4 ∈ list4 q ∧ GHOST ∈ list4 q ∧ v ∉ list4 q then 1 else 0

theorem good4_ok (v : VId) (m : Mesh Nat Nat Unit) : GoodQuality (good4 v) m := by
  refine ⟨fun _ _ _ => rfl, ?_⟩
  intro a b c d q _ hs
  have : ∀ u, u ∈ list4 q ↔ u ∈ list4 (a, b, c, d) := fun u => (SameTet.mem hs u).symm
  simp only [good4, this]

def eightT : Option (Mesh Nat Nat Unit) := eight.bind fun m => m.setTrackTriMap true

theorem eightT_ok : ∃ m, eightT = some m ∧ Consistent m ∧ m.trackTriMap = true := by
  obtain ⟨m, h1, h2⟩ := eight_ok
  obtain ⟨m', h3, h4, h5, -⟩ := C28_track_exact h2
  exact ⟨m', by rw [eightT, h1]; exact h3, h5, h4⟩

/-- A mesh meeting the hypotheses of `C58_run`; `flip_quality` performs a 2-to-3 flip. -/
example : ∃ m m', eightT = some m ∧ Consistent m ∧ GoodQuality (good4 0) m ∧ m.trackTriMap = true ∧
    m.flipQuality (good4 0) 60 = some m' ∧ m.numTets = some 8 ∧ m'.numTets = some 9 := by
  obtain ⟨m, h1, h2, h3⟩ := eightT_ok
  have h4 := of_map (f := fun m => (m.numTets, (m.flipQuality (good4 0) 60).map fun m => m.numTets)) h1
    (b := (some 8, some (some 9))) (by decide +kernel)
  obtain ⟨h5, h6⟩ := Prod.mk.inj h4
  obtain ⟨m', h7, h8⟩ := Option.map_eq_some_iff.1 h6
  exact ⟨m, m', h1, h2, good4_ok _ _, h3, h7, h5, h8⟩

/-- Some improving flips are missed: the triangles are put into the queue in the order in which a walker sees them,
but looked up as if their vertices were sorted.  Here the flip of the triangle 0 2 3, which is in the queue as 2 3 0,
would be performed, but `flip_quality` does nothing. -/
theorem C58_rotated_skipped : ∃ m m' queue, eightT = some m ∧ Consistent m ∧ m.trackTriMap = true ∧
    m.qualityQueue = some queue ∧ EdgeOrTri.tri (2, 3, 0) ∈ queue ∧
    m.flipQuality (good4 1) 60 = some m' ∧ m'.tets.values.map (·.tet 3) = m.tets.values.map (·.tet 3) ∧
    ∃ w m2 ws, m'.tri w = some (2, 3, 0) ∧ m'.flip23Quality (good4 1) w = some (m2, some ws) := by
  obtain ⟨m, h1, h2, h3⟩ := eightT_ok
  have h4 := of_map (f := fun m => (m.qualityQueue.map fun l => decide (EdgeOrTri.tri (2, 3, 0) ∈ l))) h1
    (b := some true) (by decide +kernel)
  obtain ⟨queue, h5, h6⟩ := Option.map_eq_some_iff.1 h4
  have h7 := of_map (f := fun m => (m.flipQuality (good4 1) 60).map fun m' =>
    decide (m'.tets.values.map (·.tet 3) = m.tets.values.map (·.tet 3)) && decide (m'.tri ⟨5, 1⟩ = some (2, 3, 0)) &&
      decide ((m'.flip23Quality (good4 1) ⟨5, 1⟩).bind (·.2) = some [⟨5, 2⟩, ⟨2, 2⟩, ⟨8, 2⟩])) h1
    (b := some true) (by decide +kernel)
  obtain ⟨m', h8, h9⟩ := Option.map_eq_some_iff.1 h7
  simp only [Bool.and_eq_true, decide_eq_true_eq] at h9
  obtain ⟨⟨m2, ws⟩, h10, h11⟩ := Option.bind_eq_some_iff.1 h9.2
  refine ⟨m, m', queue, h1, h2, h3, h5, of_decide_eq_true h6, h8, h9.1.1, ⟨5, 1⟩, m2, [⟨5, 2⟩, ⟨2, 2⟩, ⟨8, 2⟩], h9.1.2, ?_⟩
  rw [h10, ← h11]

/-- `nine`, tracked for a while; then flipped without tracking. -/
def staleIndex : Option (Mesh Nat Nat Unit) :=
  ((nine.bind fun m => m.setTrackTriMap true).bind fun m => m.setTrackTriMap false).bind fun m =>
    (m.flip32Unchecked ⟨0, 0⟩).map (·.1)

/-- Turning off tracking does not make `flip_quality` stop using the index: it performs a 2-to-3 flip although the
index is not tracked, of a triangle other than the one that it looked up. -/
theorem C58_stale_index : ∃ m m' w, staleIndex = some m ∧ m.trackTriMap = false ∧
    m.triMap (2, 3, 4) = some w ∧ m.tri w = some (2, 3, 1) ∧
    m.flipQuality (good4 0) 60 = some m' ∧ m.numTets = some 8 ∧ m'.numTets = some 9 := by
  have h0 : staleIndex.isSome = true := by decide +kernel
  obtain ⟨m, h1⟩ := Option.isSome_iff_exists.1 h0
  have k1 := of_map (f := fun m => m.trackTriMap) h1 (b := false) (by decide +kernel)
  have k2 := of_map (f := fun m => m.triMap (2, 3, 4)) h1 (b := some ⟨0, 3⟩) (by decide +kernel)
  have k3 := of_map (f := fun m => m.tri ⟨0, 3⟩) h1 (b := some (2, 3, 1)) (by decide +kernel)
  have k4 := of_map (f := fun m => m.numTets) h1 (b := some 8) (by decide +kernel)
  have k5 := of_map (f := fun m => (m.flipQuality (good4 0) 60).map fun m => m.numTets) h1 (b := some (some 9))
    (by decide +kernel)
  obtain ⟨m', k6, k7⟩ := Option.map_eq_some_iff.1 k5
  exact ⟨m, m', _, h1, k1, k2, k3, k6, k4, k7⟩

end Tet
