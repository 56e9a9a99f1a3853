import Verif.Model.Delaunay
import Verif.Proofs.IdMap

/-!
# What is computed keeps the positions and values of the vertices
-/

namespace Tet
variable {P V T D R K : Type}

/-- The same vertices with the same positions and values. -/
structure VFrame (m m' : Mesh P V T) : Prop where
  wf : m.vertices.WF → m'.vertices.WF
  get : ∀ u, (m'.vertices.get u).map (fun x => (x.position, x.value)) =
    (m.vertices.get u).map fun x => (x.position, x.value)
  track : m'.trackTriMap = m.trackTriMap

namespace VFrame

theorem rfl' {m m' : Mesh P V T} (h : m'.vertices = m.vertices) (ht : m'.trackTriMap = m.trackTriMap := by rfl) : VFrame m m' :=
  ⟨by rw [h]; exact id, by simp [h], ht⟩

theorem refl (m : Mesh P V T) : VFrame m m := rfl' rfl

theorem trans {a b c : Mesh P V T} (h : VFrame a b) (h' : VFrame b c) : VFrame a c :=
  ⟨fun w => h'.wf (h.wf w), fun u => (h'.get u).trans (h.get u), h'.track.trans h.track⟩

theorem foldlM {α : Type} {f : Mesh P V T → α → Option (Mesh P V T)} (hf : ∀ m x m', f m x = some m' → VFrame m m') :
    ∀ (l : List α) {m m' : Mesh P V T}, l.foldlM f m = some m' → VFrame m m' := by
  intro l
  induction l with
  | nil =>
    intro m m' h
    cases h
    exact refl _
  | cons x l ih =>
    intro m m' h
    rw [List.foldlM_cons] at h
    obtain ⟨m1, h1, h2⟩ := Option.bind_eq_some_iff.1 h
    exact (hf _ _ _ h1).trans (ih h2)

theorem modVertex {m : Mesh P V T} {f : Vertex P V → Vertex P V} (v : VId)
    (hf : ∀ x, (f x).position = x.position ∧ (f x).value = x.value) :
    VFrame m { m with vertices := m.vertices.modify v f } := by
  refine ⟨fun w => w.modify v f, fun u => ?_, rfl⟩
  show ((m.vertices.modify v f).get u).map _ = _
  rw [IdMap.get_modify]
  split_ifs
  · cases m.vertices.get u <;> simp [hf]
  · rfl

theorem modTet {m m' : Mesh P V T} {k f} (h : m.modTet k f = some m') : VFrame m m' := by
  unfold Mesh.modTet at h
  split_ifs at h
  cases h
  exact rfl' rfl

theorem modEdge {m m' : Mesh P V T} {k f} (h : m.modEdge k f = some m') : VFrame m m' := by
  unfold Mesh.modEdge at h
  split_ifs at h
  cases h
  exact rfl' rfl

theorem setVertexTet (m : Mesh P V T) (v w) : VFrame m (m.setVertexTet v w) := modVertex v fun _ => ⟨rfl, rfl⟩

theorem flagEdge {b} {m m' : Mesh P V T} {w} (h : m.flagEdge b w = some m') : VFrame m m' := by
  unfold Mesh.flagEdge at h
  obtain ⟨e, -, h⟩ := Option.bind_eq_some_iff.1 h
  exact modEdge h

theorem flagEdges {b} {m m' : Mesh P V T} {w} (h : m.flagEdges b w = some m') : VFrame m m' :=
  foldlM (fun _ _ _ h => flagEdge h) _ h

theorem fiMark {m m' : Mesh P V T} {w} (h : m.fiMark w = some m') : VFrame m m' := by
  unfold Mesh.fiMark at h
  obtain ⟨m1, h1, h⟩ := Option.bind_eq_some_iff.1 h
  exact (modTet h1).trans (flagEdges h)

theorem fiDropEdge {m m' : Mesh P V T} {e} (h : m.fiDropEdge e = some m') : VFrame m m' := by
  unfold Mesh.fiDropEdge at h
  split at h
  · split_ifs at h
    · cases h; exact refl _
    · obtain ⟨r, -, rfl⟩ := Option.map_eq_some_iff.1 h
      exact rfl' rfl
  · cases h; exact refl _

theorem fiDrop {m m' : Mesh P V T} {k} (h : m.fiDrop k = some m') : VFrame m m' := by
  unfold Mesh.fiDrop at h
  obtain ⟨t, -, h⟩ := Option.bind_eq_some_iff.1 h
  obtain ⟨m1, h1, h⟩ := Option.bind_eq_some_iff.1 h
  refine (foldlM (fun _ _ _ h => fiDropEdge h) _ h1).trans ?_
  split_ifs at h
  · cases h; exact refl _
  · obtain ⟨r, -, rfl⟩ := Option.map_eq_some_iff.1 h
    exact rfl' rfl

theorem insertTet {m m' : Mesh P V T} {t k} (h : m.insertTet t = some (m', k)) : VFrame m m' := by
  unfold Mesh.insertTet at h
  obtain ⟨t, -, h⟩ := Option.bind_eq_some_iff.1 h
  cases h
  exact rfl' rfl

theorem insertEdge {m m' : Mesh P V T} {t k} (h : m.insertEdge t = some (m', k)) : VFrame m m' := by
  unfold Mesh.insertEdge at h
  obtain ⟨t, -, h⟩ := Option.bind_eq_some_iff.1 h
  cases h
  exact rfl' rfl

theorem fiDup {m m' : Mesh P V T} {w w'} (h : m.fiDup w = some (m', w')) : VFrame m m' := by
  unfold Mesh.fiDup at h
  obtain ⟨t, -, h⟩ := Option.bind_eq_some_iff.1 h
  split_ifs at h
  · obtain ⟨⟨m1, id⟩, h1, h⟩ := Option.bind_eq_some_iff.1 h
    obtain ⟨adj, -, h⟩ := Option.bind_eq_some_iff.1 h
    obtain ⟨m2, h2, h⟩ := Option.bind_eq_some_iff.1 h
    cases h
    exact (insertTet h1).trans (modTet h2)
  · obtain ⟨m2, h2, h⟩ := Option.bind_eq_some_iff.1 h
    cases h
    exact modTet h2

theorem fiDups : ∀ (B : List Walker) {m m' : Mesh P V T} {B'}, Mesh.fiDups B m = some (m', B') → VFrame m m' := by
  intro B
  induction B with
  | nil =>
    intro m m' B' h
    cases h
    exact refl _
  | cons w B ih =>
    intro m m' B' h
    unfold Mesh.fiDups at h
    obtain ⟨⟨m1, w1⟩, h1, h⟩ := Option.bind_eq_some_iff.1 h
    obtain ⟨⟨m2, w2⟩, h2, h⟩ := Option.bind_eq_some_iff.1 h
    cases h
    exact (fiDup h1).trans (ih h2)

theorem fiLink {m m' : Mesh P V T} {w} (h : m.fiLink w = some m') : VFrame m m' := by
  unfold Mesh.fiLink at h
  obtain ⟨e, -, h⟩ := Option.bind_eq_some_iff.1 h
  obtain ⟨ue, -, h⟩ := Option.bind_eq_some_iff.1 h
  split_ifs at h
  · obtain ⟨m1, h1, h⟩ := Option.bind_eq_some_iff.1 h
    obtain ⟨m2, h2, h⟩ := Option.bind_eq_some_iff.1 h
    exact ((modTet h1).trans (modTet h2)).trans (modEdge h)
  · exact modEdge h

theorem fiFill {v} {m m' : Mesh P V T} {w} (h : m.fiFill v w = some m') : VFrame m m' := by
  unfold Mesh.fiFill Mesh.fiSetup at h
  obtain ⟨m0, h0, h⟩ := Option.bind_eq_some_iff.1 h
  refine VFrame.trans ?_ (foldlM (fun _ _ _ h => fiLink h) _ h)
  obtain ⟨m1, h1, h0⟩ := Option.bind_eq_some_iff.1 h0
  obtain ⟨m2, h2, h0⟩ := Option.bind_eq_some_iff.1 h0
  obtain ⟨m3, h3, h0⟩ := Option.bind_eq_some_iff.1 h0
  obtain ⟨m4, h4, h0⟩ := Option.bind_eq_some_iff.1 h0
  obtain ⟨x, -, h0⟩ := Option.bind_eq_some_iff.1 h0
  obtain ⟨⟨a, b, c⟩, -, h0⟩ := Option.bind_eq_some_iff.1 h0
  cases h0
  refine (modTet h1).trans ((flagEdges h2).trans ((modTet h3).trans ((modTet h4).trans ?_)))
  refine VFrame.trans ?_ (((setVertexTet _ _ _).trans (setVertexTet _ _ _)).trans (setVertexTet _ _ _))
  split_ifs
  · exact setVertexTet _ _ _
  · exact refl _

theorem setEdgeAddedFlag {b v} {m m' : Mesh P V T} (h : Mesh.setEdgeAddedFlag b m v = some m') : VFrame m m' := by
  unfold Mesh.setEdgeAddedFlag at h
  split_ifs at h
  · cases h; exact rfl' rfl
  · cases h; exact modVertex v fun _ => ⟨rfl, rfl⟩

theorem setTargetFlag {b v} {m m' : Mesh P V T} (h : Mesh.setTargetFlag m v b = some m') : VFrame m m' := by
  unfold Mesh.setTargetFlag at h
  split_ifs at h
  · cases h; exact rfl' rfl
  · cases h; exact modVertex v fun _ => ⟨rfl, rfl⟩

theorem fiRing {e s} : ∀ (fuel : Nat) (w : Walker) {m m' : Mesh P V T}, Mesh.fiRing e s fuel w m = some m' → VFrame m m' := by
  intro fuel
  induction fuel with
  | zero => intro w m m' h; cases h
  | succ n ih =>
    intro w m m' h
    unfold Mesh.fiRing at h
    obtain ⟨m1, h1, h⟩ := Option.bind_eq_some_iff.1 h
    obtain ⟨x, -, h⟩ := Option.bind_eq_some_iff.1 h
    split_ifs at h
    · exact (modTet h1).trans (ih _ h)
    · cases h; exact modTet h1

theorem fiEdge {v fuel} {m m' : Mesh P V T} {w} (h : Mesh.fiEdge v fuel m w = some m') : VFrame m m' := by
  unfold Mesh.fiEdge at h
  obtain ⟨x, -, h⟩ := Option.bind_eq_some_iff.1 h
  obtain ⟨y, -, h⟩ := Option.bind_eq_some_iff.1 h
  split_ifs at h
  · cases h; exact refl _
  · obtain ⟨m1, h1, h⟩ := Option.bind_eq_some_iff.1 h
    obtain ⟨⟨m2, e⟩, h2, h⟩ := Option.bind_eq_some_iff.1 h
    exact (setEdgeAddedFlag h1).trans ((insertEdge h2).trans (fiRing _ _ h))

theorem fiClear {m m' : Mesh P V T} {w} (h : Mesh.fiClear m w = some m') : VFrame m m' := by
  refine foldlM (fun _ _ _ h => ?_) _ h
  obtain ⟨y, -, h⟩ := Option.bind_eq_some_iff.1 h
  exact setEdgeAddedFlag h

theorem triInsertTets {m m' : Mesh P V T} {ks} (h : m.triInsertTets ks = some m') : VFrame m m' := by
  unfold Mesh.triInsertTets at h
  split_ifs at h
  · refine foldlM (fun _ _ _ h => ?_) _ h
    obtain ⟨t, -, h⟩ := Option.bind_eq_some_iff.1 h
    cases h
    exact rfl' rfl
  · cases h; exact refl _

theorem triRemoveTets {m m' : Mesh P V T} {ks} (h : m.triRemoveTets ks = some m') : VFrame m m' := by
  unfold Mesh.triRemoveTets at h
  split_ifs at h
  · refine foldlM (fun _ _ _ h => ?_) _ h
    obtain ⟨t, -, h⟩ := Option.bind_eq_some_iff.1 h
    cases h
    exact rfl' rfl
  · cases h; exact refl _

theorem flipIn {m m' : Mesh P V T} {v B E fuel B'} (h : m.flipInVertexUnchecked v B E fuel = some (m', B')) :
    VFrame m m' := by
  unfold Mesh.flipInVertexUnchecked at h
  obtain ⟨m1, h1, h⟩ := Option.bind_eq_some_iff.1 h
  obtain ⟨m2, h2, h⟩ := Option.bind_eq_some_iff.1 h
  obtain ⟨m3, h3, h⟩ := Option.bind_eq_some_iff.1 h
  obtain ⟨⟨m4, B4⟩, h4, h⟩ := Option.bind_eq_some_iff.1 h
  obtain ⟨m5, h5, h⟩ := Option.bind_eq_some_iff.1 h
  obtain ⟨m6, h6, h⟩ := Option.bind_eq_some_iff.1 h
  obtain ⟨m7, h7, h⟩ := Option.bind_eq_some_iff.1 h
  obtain ⟨m8, h8, h⟩ := Option.bind_eq_some_iff.1 h
  cases h
  exact (triRemoveTets h1).trans ((foldlM (fun _ _ _ h => fiMark h) _ h2).trans
    ((foldlM (fun _ _ _ h => fiDrop h) _ h3).trans ((fiDups _ h4).trans
    ((foldlM (fun _ _ _ h => fiFill h) _ h5).trans ((foldlM (fun _ _ _ h => foldlM (fun _ _ _ h => fiEdge h) _ h) _ h6).trans
    ((foldlM (fun _ _ _ h => fiClear h) _ h7).trans (triInsertTets h8)))))))

/-! ## The cavity -/

theorem step2 {α β : Type} {f : Mesh P V T × β → α → Option (Mesh P V T × β)}
    (hf : ∀ s x s', f s x = some s' → VFrame s.1 s'.1) :
    ∀ (l : List α) {s s'}, l.foldlM f s = some s' → VFrame s.1 s'.1 := by
  intro l
  induction l with
  | nil =>
    intro m m' h
    cases h
    exact refl _
  | cons x l ih =>
    intro m m' h
    rw [List.foldlM_cons] at h
    obtain ⟨m1, h1, h2⟩ := Option.bind_eq_some_iff.1 h
    exact (hf _ _ _ h1).trans (ih h2)

theorem extendStep {s : Mesh P V T × List Walker} {w s'} (h : Mesh.extendStep s w = some s') : VFrame s.1 s'.1 := by
  unfold Mesh.extendStep at h
  obtain ⟨x, -, h⟩ := Option.bind_eq_some_iff.1 h
  obtain ⟨y, -, h⟩ := Option.bind_eq_some_iff.1 h
  split_ifs at h
  all_goals
    obtain ⟨m1, h1, h⟩ := Option.bind_eq_some_iff.1 h
    cases h
    exact modTet h1

theorem retractStep {s : Mesh P V T × List Walker} {w s'} (h : Mesh.retractStep s w = some s') : VFrame s.1 s'.1 := by
  unfold Mesh.retractStep at h
  obtain ⟨y, -, h⟩ := Option.bind_eq_some_iff.1 h
  split_ifs at h
  · obtain ⟨m1, h1, h⟩ := Option.bind_eq_some_iff.1 h
    cases h
    exact modTet h1
  · obtain ⟨x, -, h⟩ := Option.bind_eq_some_iff.1 h
    obtain ⟨m1, h1, h⟩ := Option.bind_eq_some_iff.1 h
    cases h
    exact modTet h1

theorem cavityGrow {tests convex} : ∀ (fuel : Nat) {s s' : Mesh.CavityState P V T},
    Mesh.cavityGrow tests convex fuel s = some s' → VFrame s.mesh s'.mesh := by
  intro fuel
  induction fuel with
  | zero =>
    intro s s' h
    unfold Mesh.cavityGrow at h
    split_ifs at h
    cases h
    exact refl _
  | succ n ih =>
    intro s s' h
    unfold Mesh.cavityGrow at h
    split at h
    · cases h; exact refl _
    · obtain ⟨x, -, h⟩ := Option.bind_eq_some_iff.1 h
      split at h
      · obtain ⟨m1, h1, h⟩ := Option.bind_eq_some_iff.1 h
        obtain ⟨adj, -, h⟩ := Option.bind_eq_some_iff.1 h
        obtain ⟨safe, -, h⟩ := Option.bind_eq_some_iff.1 h
        obtain ⟨inside, -, h⟩ := Option.bind_eq_some_iff.1 h
        split at h
        · obtain ⟨⟨m2, q⟩, h2, h⟩ := Option.bind_eq_some_iff.1 h
          exact (modTet h1).trans ((step2 (fun _ _ _ h => extendStep h) _ h2).trans (ih h))
        · obtain ⟨m2, h2, h⟩ := Option.bind_eq_some_iff.1 h
          refine (modTet h1).trans (VFrame.trans ?_ (ih h))
          split at h2
          · cases h2; exact refl _
          · exact modTet h2
      · exact (ih h :)

theorem cavityShrink {tests exclude} : ∀ (fuel : Nat) {s s' : Mesh.CavityState P V T},
    Mesh.cavityShrink tests exclude fuel s = some s' → VFrame s.mesh s'.mesh := by
  intro fuel
  induction fuel with
  | zero =>
    intro s s' h
    unfold Mesh.cavityShrink at h
    split_ifs at h
    cases h
    exact refl _
  | succ n ih =>
    intro s s' h
    unfold Mesh.cavityShrink at h
    split at h
    · cases h; exact refl _
    · obtain ⟨x, -, h⟩ := Option.bind_eq_some_iff.1 h
      split at h
      · obtain ⟨vs, -, h⟩ := Option.bind_eq_some_iff.1 h
        split at h
        · exact (ih h :)
        · obtain ⟨m1, h1, h⟩ := Option.bind_eq_some_iff.1 h
          obtain ⟨⟨m2, q⟩, h2, h⟩ := Option.bind_eq_some_iff.1 h
          exact (modTet h1).trans ((step2 (fun _ _ _ h => retractStep h) _ h2).trans (ih h))
      · exact (ih h :)

theorem filterBoundary : ∀ (l : List Walker) {m m' : Mesh P V T} {l'}, Mesh.filterBoundary m l = some (m', l') →
    VFrame m m' := by
  intro l
  induction l with
  | nil =>
    intro m m' l' h
    cases h
    exact refl _
  | cons w l ih =>
    intro m m' l' h
    unfold Mesh.filterBoundary at h
    obtain ⟨f, -, h⟩ := Option.bind_eq_some_iff.1 h
    obtain ⟨m1, h1, h⟩ := Option.bind_eq_some_iff.1 h
    obtain ⟨⟨m2, l2⟩, h2, h⟩ := Option.bind_eq_some_iff.1 h
    cases h
    exact (modTet h1).trans (ih h2)

theorem filterEnclosed : ∀ (l : List TId) {m m' : Mesh P V T} {l'}, Mesh.filterEnclosed m l = some (m', l') →
    VFrame m m' := by
  intro l
  induction l with
  | nil =>
    intro m m' l' h
    cases h
    exact refl _
  | cons w l ih =>
    intro m m' l' h
    unfold Mesh.filterEnclosed at h
    obtain ⟨f, -, h⟩ := Option.bind_eq_some_iff.1 h
    obtain ⟨m1, h1, h⟩ := Option.bind_eq_some_iff.1 h
    obtain ⟨⟨m2, l2⟩, h2, h⟩ := Option.bind_eq_some_iff.1 h
    cases h
    exact (modTet h1).trans (ih h2)

theorem pointCavity {tests B E exclude} {m m' : Mesh P V T} {convex star remove fuel B' E'}
    (h : Mesh.pointCavity tests B E exclude m convex star remove fuel = some (m', B', E')) : VFrame m m' := by
  unfold Mesh.pointCavity at h
  obtain ⟨m1, h1, h⟩ := Option.bind_eq_some_iff.1 h
  obtain ⟨s, h2, h⟩ := Option.bind_eq_some_iff.1 h
  obtain ⟨⟨m3, B3, E3⟩, h3, h⟩ := Option.bind_eq_some_iff.1 h
  simp only at h
  split_ifs at h
  cases h
  have a1 : VFrame m m1 := by
    refine foldlM (fun _ _ _ h => ?_) _ h1
    unfold Mesh.markInitial at h
    obtain ⟨vs, -, h⟩ := Option.bind_eq_some_iff.1 h
    split_ifs at h
    exact modTet h
  have a2 : VFrame m1 s.mesh := by
    split_ifs at h2
    · exact cavityGrow _ h2
    · cases h2; exact refl _
  refine a1.trans (a2.trans ?_)
  split_ifs at h3
  · cases h3; exact refl _
  · unfold Mesh.cavityFix at h3
    obtain ⟨n1, g1, h3⟩ := Option.bind_eq_some_iff.1 h3
    obtain ⟨n2, g2, h3⟩ := Option.bind_eq_some_iff.1 h3
    obtain ⟨⟨n3, B4⟩, g3, h3⟩ := Option.bind_eq_some_iff.1 h3
    obtain ⟨⟨n4, E4⟩, g4, h3⟩ := Option.bind_eq_some_iff.1 h3
    simp only at h3
    split_ifs at h3
    cases h3
    exact (foldlM (fun _ _ _ h => modTet h) _ g1).trans ((cavityShrink _ g2).trans
      ((filterBoundary _ g3).trans (filterEnclosed _ g4)))

/-! ## The search -/

theorem walkersOptNext {s s' : Mesh.WalkersOptState P V T} {r} (h : Mesh.walkersOptNext s = some (r, s')) :
    VFrame s.mesh s'.mesh := by
  unfold Mesh.walkersOptNext at h
  generalize s.toSearch = l at h
  generalize s.mesh = m at h ⊢
  induction l with
  | nil =>
    cases h
    exact refl _
  | cons w l ih =>
    unfold Mesh.walkersOptNextAux at h
    obtain ⟨t, -, h⟩ := Option.bind_eq_some_iff.1 h
    split_ifs at h
    · exact ih h
    · obtain ⟨m1, h1, h⟩ := Option.bind_eq_some_iff.1 h
      obtain ⟨a, -, h⟩ := Option.bind_eq_some_iff.1 h
      obtain ⟨b, -, h⟩ := Option.bind_eq_some_iff.1 h
      obtain ⟨c, -, h⟩ := Option.bind_eq_some_iff.1 h
      cases h
      exact modTet h1

theorem targetsOptNext {fuel} {s s' : Mesh.TargetsOptState P V T} {r} (h : Mesh.targetsOptNext fuel s = some (r, s')) :
    VFrame s.mesh s'.mesh := by
  unfold Mesh.targetsOptNext at h
  generalize s.toSearch = l at h
  generalize s.mesh = m at h ⊢
  induction l with
  | nil =>
    cases h
    exact refl _
  | cons w l ih =>
    unfold Mesh.targetsOptNextAux at h
    obtain ⟨t, -, h⟩ := Option.bind_eq_some_iff.1 h
    obtain ⟨f, -, h⟩ := Option.bind_eq_some_iff.1 h
    split_ifs at h
    · exact ih h
    · obtain ⟨m1, h1, h⟩ := Option.bind_eq_some_iff.1 h
      obtain ⟨a, -, h⟩ := Option.bind_eq_some_iff.1 h
      obtain ⟨b, -, h⟩ := Option.bind_eq_some_iff.1 h
      cases h
      exact setTargetFlag h1

theorem drain {σ α : Type} {next : σ → Option (Option α × σ)} {f : σ → Mesh P V T}
    (hn : ∀ s r s', next s = some (r, s') → VFrame (f s) (f s')) :
    ∀ (n : Nat) {s l s'}, Tet.drain next n s = some (l, s') → VFrame (f s) (f s') := by
  intro n
  induction n with
  | zero => intro s l s' h; cases h
  | succ n ih =>
    intro s l s' h
    unfold Tet.drain at h
    obtain ⟨⟨r, s1⟩, h1, h⟩ := Option.bind_eq_some_iff.1 h
    cases r with
    | none => cases h; exact hn _ _ _ h1
    | some a =>
      obtain ⟨⟨l2, s2⟩, h2, h⟩ := Option.bind_eq_some_iff.1 h
      cases h
      exact (hn _ _ _ h1).trans (ih h2)

theorem findHit {σ α : Type} {next : σ → Option (Option α × σ)} {hit} {f : σ → Mesh P V T}
    (hn : ∀ s r s', next s = some (r, s') → VFrame (f s) (f s')) :
    ∀ (n : Nat) {s l s'}, Tet.findHit next hit n s = some (l, s') → VFrame (f s) (f s') := by
  intro n
  induction n with
  | zero => intro s l s' h; cases h
  | succ n ih =>
    intro s l s' h
    unfold Tet.findHit at h
    obtain ⟨⟨r, s1⟩, h1, h⟩ := Option.bind_eq_some_iff.1 h
    cases r with
    | none => cases h; exact hn _ _ _ h1
    | some a =>
      obtain ⟨b, -, h⟩ := Option.bind_eq_some_iff.1 h
      split_ifs at h
      · cases h; exact hn _ _ _ h1
      · exact (hn _ _ _ h1).trans (ih h)

theorem walkersOptDrop {s : Mesh.WalkersOptState P V T} {m'} (h : Mesh.walkersOptDrop s = some m') : VFrame s.mesh m' :=
  foldlM (fun _ _ _ h => modTet h) _ h

theorem closer {g : DelaunayGeo P D R K} {fuel id} {m m' : Mesh P V T} {c r} (h : m.closer g fuel id c = some (m', r)) :
    VFrame m m' := by
  unfold Mesh.closer at h
  obtain ⟨s, h1, h⟩ := Option.bind_eq_some_iff.1 h
  obtain ⟨⟨l, s2⟩, h2, h⟩ := Option.bind_eq_some_iff.1 h
  obtain ⟨m1, h3, h⟩ := Option.bind_eq_some_iff.1 h
  obtain ⟨l2, -, h⟩ := Option.bind_eq_some_iff.1 h
  have : VFrame m m1 := by
    obtain ⟨w, -, rfl⟩ := Option.map_eq_some_iff.1 h1
    refine VFrame.trans (drain (f := Mesh.TargetsOptState.mesh) (s := ⟨m, [], [w]⟩) (fun s r s' h => ?_) _ h2) (foldlM (fun _ _ _ h => setTargetFlag h) _ h3)
    unfold Mesh.vertexTargetsOptNext at h
    obtain ⟨⟨r, s1⟩, h1, h⟩ := Option.bind_eq_some_iff.1 h
    cases r with
    | none => cases h; exact targetsOptNext h1
    | some w =>
      obtain ⟨v, -, h⟩ := Option.bind_eq_some_iff.1 h
      cases h
      exact targetsOptNext h1
  split at h
  · cases h; exact this
  · obtain ⟨dv, -, h⟩ := Option.bind_eq_some_iff.1 h
    obtain ⟨dc, -, h⟩ := Option.bind_eq_some_iff.1 h
    cases h
    exact this

theorem goClosest {g : DelaunayGeo P D R K} {fuel id} : ∀ (n : Nat) {m m' : Mesh P V T} {c r},
    m.goClosest g fuel id n c = some (m', r) → VFrame m m' := by
  intro n
  induction n with
  | zero => intro m m' c r h; cases h
  | succ n ih =>
    intro m m' c r h
    unfold Mesh.goClosest at h
    obtain ⟨⟨m1, r1⟩, h1, h⟩ := Option.bind_eq_some_iff.1 h
    cases r1 with
    | none => cases h; exact closer h1
    | some v => exact (closer h1).trans (ih h)

theorem notDelaunay {g : DelaunayGeo P D R K} {order fuel} {m m' : Mesh P V T} {id start k}
    (h : m.notDelaunay g order fuel id start = some (m', k)) : VFrame m m' := by
  unfold Mesh.notDelaunay at h
  obtain ⟨x, -, h⟩ := Option.bind_eq_some_iff.1 h
  obtain ⟨b, -, h⟩ := Option.bind_eq_some_iff.1 h
  split_ifs at h
  · cases h; exact refl _
  · obtain ⟨⟨m1, c⟩, h1, h⟩ := Option.bind_eq_some_iff.1 h
    obtain ⟨s, h2, h⟩ := Option.bind_eq_some_iff.1 h
    obtain ⟨⟨r, s2⟩, h3, h⟩ := Option.bind_eq_some_iff.1 h
    obtain ⟨m2, h4, h⟩ := Option.bind_eq_some_iff.1 h
    have a1 : VFrame m m2 := by
      obtain ⟨w, -, rfl⟩ := Option.map_eq_some_iff.1 h2
      exact (goClosest _ h1).trans ((findHit (f := Mesh.WalkersOptState.mesh) (s := ⟨m1, [], [w]⟩) (fun _ _ _ h => walkersOptNext h) _ h3).trans
        (walkersOptDrop h4))
    cases r with
    | some w => cases h; exact a1
    | none =>
      obtain ⟨⟨m3, ch⟩, h5, h⟩ := Option.bind_eq_some_iff.1 h
      obtain ⟨adj, -, h⟩ := Option.bind_eq_some_iff.1 h
      obtain ⟨k', -, h⟩ := Option.bind_eq_some_iff.1 h
      cases h
      unfold Mesh.vertexTetsOpt at h5
      obtain ⟨s, g1, h5⟩ := Option.bind_eq_some_iff.1 h5
      obtain ⟨⟨l, s2⟩, g2, h5⟩ := Option.bind_eq_some_iff.1 h5
      obtain ⟨m4, g3, h5⟩ := Option.bind_eq_some_iff.1 h5
      cases h5
      obtain ⟨w, -, rfl⟩ := Option.map_eq_some_iff.1 g1
      exact a1.trans ((drain (f := Mesh.WalkersOptState.mesh) (s := ⟨m2, [], [w]⟩) (fun _ _ _ h => walkersOptNext h) _ g2).trans (walkersOptDrop g3))

/-- Adding a vertex with a chosen id. -/
theorem addVertex {g : DelaunayGeo P D R K} {order fuel} {m m' : Mesh P V T} {id : VId} {p x start k}
    (hm : m.vertices.WF) (hid : id < idMax)
    (h : m.addVertexDelaunayInternal g order fuel (some id) p x start = some (m', k)) :
    k = id ∧ m'.vertices.WF ∧ ∀ u, (m'.vertices.get u).map (fun x => (x.position, x.value)) =
      if u = id then some (p, x) else (m.vertices.get u).map fun x => (x.position, x.value) := by
  unfold Mesh.addVertexDelaunayInternal at h
  obtain ⟨⟨m1, id1⟩, h1, h⟩ := Option.bind_eq_some_iff.1 h
  obtain ⟨⟨m2, k2⟩, h2, h⟩ := Option.bind_eq_some_iff.1 h
  obtain ⟨⟨m3, B, E⟩, h3, h⟩ := Option.bind_eq_some_iff.1 h
  obtain ⟨⟨m4, B'⟩, h4, h⟩ := Option.bind_eq_some_iff.1 h
  cases h
  obtain ⟨vs, k1, k2, k3, -⟩ := IdMap.insertWithKey_spec id (Vertex.new invalidWalker p x) hm hid
  simp only [k1, Option.map_some, Option.some.injEq, Prod.mk.injEq] at h1
  obtain ⟨rfl, rfl⟩ := h1
  have hf := (notDelaunay h2).trans ((pointCavity h3).trans (flipIn h4))
  refine ⟨rfl, hf.wf k2, fun u => (hf.get u).trans ?_⟩
  show (vs.get u).map _ = _
  rw [k3]
  split_ifs <;> rfl

/-- Adding a vertex with a fresh id. -/
theorem addVertex_fresh {g : DelaunayGeo P D R K} {order fuel} {m m' : Mesh P V T} {p x start k}
    (hm : m.vertices.WF) (h : m.addVertexDelaunayInternal g order fuel none p x start = some (m', k)) :
    m.vertices.get k = none ∧ m'.vertices.WF ∧ ∀ u, (m'.vertices.get u).map (fun x => (x.position, x.value)) =
      if u = k then some (p, x) else (m.vertices.get u).map fun x => (x.position, x.value) := by
  unfold Mesh.addVertexDelaunayInternal at h
  obtain ⟨⟨m1, id1⟩, h1, h⟩ := Option.bind_eq_some_iff.1 h
  obtain ⟨⟨m2, k2⟩, h2, h⟩ := Option.bind_eq_some_iff.1 h
  obtain ⟨⟨m3, B, E⟩, h3, h⟩ := Option.bind_eq_some_iff.1 h
  obtain ⟨⟨m4, B'⟩, h4, h⟩ := Option.bind_eq_some_iff.1 h
  cases h
  simp only [Option.map_eq_some_iff, Prod.exists, Prod.mk.injEq] at h1
  obtain ⟨vs, k', h1, rfl, rfl⟩ := h1
  obtain ⟨k1, k2, -, k3, -⟩ := IdMap.insert_some hm h1
  have hf := (notDelaunay h2).trans ((pointCavity h3).trans (flipIn h4))
  refine ⟨k2, hf.wf k1, fun u => (hf.get u).trans ?_⟩
  show (vs.get u).map _ = _
  rw [k3]
  split_ifs <;> rfl

/-- Adding a vertex does not change whether triangles are tracked. -/
theorem addVertex_track {g : DelaunayGeo P D R K} {order fuel} {m m' : Mesh P V T} {id p x start k}
    (h : m.addVertexDelaunayInternal g order fuel id p x start = some (m', k)) : m'.trackTriMap = m.trackTriMap := by
  unfold Mesh.addVertexDelaunayInternal at h
  obtain ⟨⟨m1, id1⟩, h1, h⟩ := Option.bind_eq_some_iff.1 h
  obtain ⟨⟨m2, k2⟩, h2, h⟩ := Option.bind_eq_some_iff.1 h
  obtain ⟨⟨m3, B, E⟩, h3, h⟩ := Option.bind_eq_some_iff.1 h
  obtain ⟨⟨m4, B'⟩, h4, h⟩ := Option.bind_eq_some_iff.1 h
  cases h
  refine ((notDelaunay h2).trans ((pointCavity h3).trans (flipIn h4))).track.trans ?_
  cases id with
  | none =>
    simp only [Option.map_eq_some_iff, Prod.exists, Prod.mk.injEq] at h1
    obtain ⟨vs, k', -, rfl, -⟩ := h1
    rfl
  | some id =>
    simp only [Option.map_eq_some_iff, Prod.exists, Prod.mk.injEq] at h1
    obtain ⟨vs, -, -, rfl, -⟩ := h1
    rfl

end VFrame
end Tet
