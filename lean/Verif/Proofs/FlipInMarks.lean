import Verif.Spec.Iter
import Verif.Model.FlipIn
import Verif.Proofs.VFrame

/-!
# Filling a cavity sets no marks of the traversals
-/

namespace Tet
open Spec
variable {P V T : Type}

/-- No marks, with what is needed to carry this along. -/
structure NMk (m : Mesh P V T) : Prop where
  wf : m.tets.WF
  marks : NoMarks m

namespace NMk

theorem foldlM {α : Type} {f : Mesh P V T → α → Option (Mesh P V T)}
    (hf : ∀ m x m', f m x = some m' → NMk m → NMk m') :
    ∀ (l : List α) {m m' : Mesh P V T}, l.foldlM f m = some m' → NMk m → NMk m' := by
  intro l
  induction l with
  | nil =>
    intro m m' h hm
    cases h
    exact hm
  | cons x l ih =>
    intro m m' h hm
    rw [List.foldlM_cons] at h
    obtain ⟨m1, h1, h2⟩ := Option.bind_eq_some_iff.1 h
    exact ih h2 (hf _ _ _ h1 hm)

theorem modTet {m m' : Mesh P V T} {k f} (h : m.modTet k f = some m')
    (hf : ∀ t : Tet T, (f t).flags.walkersFromVertex = t.flags.walkersFromVertex) (hm : NMk m) : NMk m' := by
  unfold Mesh.modTet at h
  split_ifs at h
  cases h
  refine ⟨hm.wf.modify _ _, fun j t ht => ?_, hm.marks.2⟩
  change (m.tets.modify k f).get j = _ at ht
  rw [IdMap.get_modify] at ht
  split_ifs at ht
  · obtain ⟨t', ht', rfl⟩ := Option.map_eq_some_iff.1 ht
    rw [hf]
    exact hm.marks.1 _ _ ht'
  · exact hm.marks.1 _ _ ht

theorem modEdge {m m' : Mesh P V T} {k f} (h : m.modEdge k f = some m') (hm : NMk m) : NMk m' := by
  unfold Mesh.modEdge at h
  split_ifs at h
  cases h
  exact ⟨hm.wf, hm.marks⟩

theorem modVertex {m : Mesh P V T} {f : Vertex P V → Vertex P V} (v : VId) (hf : ∀ x, (f x).flags.targets = x.flags.targets)
    (hm : NMk m) : NMk { m with vertices := m.vertices.modify v f } := by
  refine ⟨hm.wf, hm.marks.1, fun j t ht => ?_, hm.marks.2.2⟩
  change (m.vertices.modify v f).get j = _ at ht
  rw [IdMap.get_modify] at ht
  split_ifs at ht
  · obtain ⟨t', ht', rfl⟩ := Option.map_eq_some_iff.1 ht
    rw [hf]
    exact hm.marks.2.1 _ _ ht'
  · exact hm.marks.2.1 _ _ ht

theorem setVertexTet {m : Mesh P V T} (v w) (hm : NMk m) : NMk (m.setVertexTet v w) := modVertex v (fun _ => rfl) hm

theorem flagEdge {b} {m m' : Mesh P V T} {w} (h : m.flagEdge b w = some m') (hm : NMk m) : NMk m' := by
  unfold Mesh.flagEdge at h
  obtain ⟨e, -, h⟩ := Option.bind_eq_some_iff.1 h
  exact modEdge h hm

theorem flagEdges {b} {m m' : Mesh P V T} {w} (h : m.flagEdges b w = some m') (hm : NMk m) : NMk m' :=
  foldlM (fun _ _ _ h => flagEdge h) _ h hm

theorem fiMark {m m' : Mesh P V T} {w} (h : m.fiMark w = some m') (hm : NMk m) : NMk m' := by
  unfold Mesh.fiMark at h
  obtain ⟨m1, h1, h⟩ := Option.bind_eq_some_iff.1 h
  exact flagEdges h (modTet h1 (fun _ => rfl) hm)

theorem fiDropEdge {m m' : Mesh P V T} {e} (h : m.fiDropEdge e = some m') (hm : NMk m) : NMk m' := by
  unfold Mesh.fiDropEdge at h
  split at h
  · split_ifs at h
    · cases h; exact hm
    · obtain ⟨r, -, rfl⟩ := Option.map_eq_some_iff.1 h
      exact ⟨hm.wf, hm.marks⟩
  · cases h; exact hm

theorem fiDrop {m m' : Mesh P V T} {k} (h : m.fiDrop k = some m') (hm : NMk m) : NMk m' := by
  unfold Mesh.fiDrop at h
  obtain ⟨t, -, h⟩ := Option.bind_eq_some_iff.1 h
  obtain ⟨m1, h1, h⟩ := Option.bind_eq_some_iff.1 h
  have hm1 := foldlM (fun _ _ _ h => fiDropEdge h) _ h1 hm
  split_ifs at h
  · cases h; exact hm1
  · obtain ⟨m2, k1, k2, k3, -⟩ := IdMap.remove_spec k hm1.wf
    rw [k1] at h
    cases h
    refine ⟨k2, fun j t ht => ?_, hm1.marks.2⟩
    change m2.get j = _ at ht
    rw [k3] at ht
    split_ifs at ht
    exact hm1.marks.1 _ _ ht

theorem insertTet {m m' : Mesh P V T} {t k} (ht : t.flags.walkersFromVertex = false) (h : m.insertTet t = some (m', k))
    (hm : NMk m) : NMk m' := by
  unfold Mesh.insertTet at h
  obtain ⟨⟨ts, j⟩, h1, h⟩ := Option.bind_eq_some_iff.1 h
  cases h
  obtain ⟨k1, -, -, k3, -⟩ := IdMap.insert_some hm.wf h1
  refine ⟨k1, fun i u hu => ?_, hm.marks.2⟩
  change ts.get i = _ at hu
  rw [k3] at hu
  split_ifs at hu
  · cases hu; exact ht
  · exact hm.marks.1 _ _ hu

theorem insertEdge {m m' : Mesh P V T} {t k} (h : m.insertEdge t = some (m', k)) (hm : NMk m) : NMk m' := by
  unfold Mesh.insertEdge at h
  obtain ⟨t, -, h⟩ := Option.bind_eq_some_iff.1 h
  cases h
  exact ⟨hm.wf, hm.marks⟩

theorem fiDup {m m' : Mesh P V T} {w w'} (h : m.fiDup w = some (m', w')) (hm : NMk m) : NMk m' := by
  unfold Mesh.fiDup at h
  obtain ⟨t, ht, h⟩ := Option.bind_eq_some_iff.1 h
  split_ifs at h
  · obtain ⟨⟨m1, id⟩, h1, h⟩ := Option.bind_eq_some_iff.1 h
    obtain ⟨adj, -, h⟩ := Option.bind_eq_some_iff.1 h
    obtain ⟨m2, h2, h⟩ := Option.bind_eq_some_iff.1 h
    cases h
    exact modTet h2 (fun _ => rfl) (insertTet (hm.marks.1 _ _ ht) h1 hm)
  · obtain ⟨m2, h2, h⟩ := Option.bind_eq_some_iff.1 h
    cases h
    exact modTet h2 (fun _ => rfl) hm

theorem fiDups : ∀ (B : List Walker) {m m' : Mesh P V T} {B'}, Mesh.fiDups B m = some (m', B') → NMk m → NMk m' := by
  intro B
  induction B with
  | nil =>
    intro m m' B' h hm
    cases h
    exact hm
  | cons w B ih =>
    intro m m' B' h hm
    unfold Mesh.fiDups at h
    obtain ⟨⟨m1, w1⟩, h1, h⟩ := Option.bind_eq_some_iff.1 h
    obtain ⟨⟨m2, w2⟩, h2, h⟩ := Option.bind_eq_some_iff.1 h
    cases h
    exact ih h2 (fiDup h1 hm)

theorem fiLink {m m' : Mesh P V T} {w} (h : m.fiLink w = some m') (hm : NMk m) : NMk m' := by
  unfold Mesh.fiLink at h
  obtain ⟨e, -, h⟩ := Option.bind_eq_some_iff.1 h
  obtain ⟨ue, -, h⟩ := Option.bind_eq_some_iff.1 h
  split_ifs at h
  · obtain ⟨m1, h1, h⟩ := Option.bind_eq_some_iff.1 h
    obtain ⟨m2, h2, h⟩ := Option.bind_eq_some_iff.1 h
    exact modEdge h (modTet h2 (fun _ => rfl) (modTet h1 (fun _ => rfl) hm))
  · exact modEdge h hm

theorem fiFill {v} {m m' : Mesh P V T} {w} (h : m.fiFill v w = some m') (hm : NMk m) : NMk m' := by
  unfold Mesh.fiFill Mesh.fiSetup at h
  obtain ⟨m0, h0, h⟩ := Option.bind_eq_some_iff.1 h
  refine foldlM (fun _ _ _ h => fiLink h) _ h ?_
  obtain ⟨m1, h1, h0⟩ := Option.bind_eq_some_iff.1 h0
  obtain ⟨m2, h2, h0⟩ := Option.bind_eq_some_iff.1 h0
  obtain ⟨m3, h3, h0⟩ := Option.bind_eq_some_iff.1 h0
  obtain ⟨m4, h4, h0⟩ := Option.bind_eq_some_iff.1 h0
  obtain ⟨x, -, h0⟩ := Option.bind_eq_some_iff.1 h0
  obtain ⟨⟨a, b, c⟩, -, h0⟩ := Option.bind_eq_some_iff.1 h0
  cases h0
  have := modTet h4 (fun _ => rfl) (modTet h3 (fun _ => rfl) (flagEdges h2 (modTet h1 (fun _ => rfl) hm)))
  refine setVertexTet _ _ (setVertexTet _ _ (setVertexTet _ _ ?_))
  split_ifs
  · exact setVertexTet _ _ this
  · exact this

theorem setEdgeAddedFlag {b v} {m m' : Mesh P V T} (h : Mesh.setEdgeAddedFlag b m v = some m') (hm : NMk m) : NMk m' := by
  unfold Mesh.setEdgeAddedFlag at h
  split_ifs at h
  · cases h; exact ⟨hm.wf, hm.marks⟩
  · cases h; exact modVertex v (fun _ => rfl) hm

theorem fiRing {e s} : ∀ (fuel : Nat) (w : Walker) {m m' : Mesh P V T}, Mesh.fiRing e s fuel w m = some m' →
    NMk m → NMk m' := by
  intro fuel
  induction fuel with
  | zero => intro w m m' h; cases h
  | succ n ih =>
    intro w m m' h hm
    unfold Mesh.fiRing at h
    obtain ⟨m1, h1, h⟩ := Option.bind_eq_some_iff.1 h
    obtain ⟨x, -, h⟩ := Option.bind_eq_some_iff.1 h
    have := modTet h1 (fun _ => rfl) hm
    split_ifs at h
    · exact ih _ h this
    · cases h; exact this

theorem fiEdge {v fuel} {m m' : Mesh P V T} {w} (h : Mesh.fiEdge v fuel m w = some m') (hm : NMk m) : NMk m' := by
  unfold Mesh.fiEdge at h
  obtain ⟨x, -, h⟩ := Option.bind_eq_some_iff.1 h
  obtain ⟨y, -, h⟩ := Option.bind_eq_some_iff.1 h
  split_ifs at h
  · cases h; exact hm
  · obtain ⟨m1, h1, h⟩ := Option.bind_eq_some_iff.1 h
    obtain ⟨⟨m2, e⟩, h2, h⟩ := Option.bind_eq_some_iff.1 h
    exact fiRing _ _ h (insertEdge h2 (setEdgeAddedFlag h1 hm))

theorem fiClear {m m' : Mesh P V T} {w} (h : Mesh.fiClear m w = some m') (hm : NMk m) : NMk m' := by
  refine foldlM (fun _ _ _ h => ?_) _ h hm
  obtain ⟨y, -, h⟩ := Option.bind_eq_some_iff.1 h
  exact setEdgeAddedFlag h

theorem triInsertTets {m m' : Mesh P V T} {ks} (h : m.triInsertTets ks = some m') (hm : NMk m) : NMk m' := by
  unfold Mesh.triInsertTets at h
  split_ifs at h
  · refine foldlM (fun _ _ _ h hm => ?_) _ h hm
    obtain ⟨t, -, h⟩ := Option.bind_eq_some_iff.1 h
    cases h
    exact ⟨hm.wf, hm.marks⟩
  · cases h; exact hm

theorem triRemoveTets {m m' : Mesh P V T} {ks} (h : m.triRemoveTets ks = some m') (hm : NMk m) : NMk m' := by
  unfold Mesh.triRemoveTets at h
  split_ifs at h
  · refine foldlM (fun _ _ _ h hm => ?_) _ h hm
    obtain ⟨t, -, h⟩ := Option.bind_eq_some_iff.1 h
    cases h
    exact ⟨hm.wf, hm.marks⟩
  · cases h; exact hm

theorem flipIn {m m' : Mesh P V T} {v B E fuel B'} (h : m.flipInVertexUnchecked v B E fuel = some (m', B'))
    (hm : NMk m) : NMk m' := by
  unfold Mesh.flipInVertexUnchecked at h
  obtain ⟨m1, h1, h⟩ := Option.bind_eq_some_iff.1 h
  obtain ⟨m2, h2, h⟩ := Option.bind_eq_some_iff.1 h
  obtain ⟨m3, h3, h⟩ := Option.bind_eq_some_iff.1 h
  obtain ⟨⟨m4, B4⟩, h4, h⟩ := Option.bind_eq_some_iff.1 h
  obtain ⟨m5, h5, h⟩ := Option.bind_eq_some_iff.1 h
  obtain ⟨m6, h6, h⟩ := Option.bind_eq_some_iff.1 h
  obtain ⟨m7, h7, h⟩ := Option.bind_eq_some_iff.1 h
  obtain ⟨m8, h8, h⟩ := Option.bind_eq_some_iff.1 h
  cases h
  exact triInsertTets h8 (foldlM (fun _ _ _ h => fiClear h) _ h7
    (foldlM (fun _ _ _ h => foldlM (fun _ _ _ h => fiEdge h) _ h) _ h6
    (foldlM (fun _ _ _ h => fiFill h) _ h5 (fiDups _ h4 (foldlM (fun _ _ _ h => fiDrop h) _ h3
    (foldlM (fun _ _ _ h => fiMark h) _ h2 (triRemoveTets h1 hm)))))))

end NMk
end Tet
