import Verif.Proofs.FlipInFlags

/-!
# Filling a cavity: all phases together
-/

namespace Tet
open Spec
variable {P V T : Type}

/-- The mesh after filling. -/
structure Flipped (m : Mesh P V T) (v : VId) (B : List Walker) (E : List TId) (A : TId × Fin 4 → TId)
    (mate : Walker → Walker) (η : VId → EId) (m' : Mesh P V T) : Prop where
  eq : m' = { m with vertices := m'.vertices, edges := m'.edges, tets := m'.tets, triMap := m'.triMap }
  wf : m'.vertices.WF ∧ m'.edges.WF ∧ m'.tets.WF
  out : ∀ k t, k ∉ E → m.tets.get k = some t → m'.tets.get k = some (patch E (Af A) t)
  inn : ∀ w t, Outer m E w → m.tets.get w.tet = some t → ∃ t', m'.tets.get (A (fid w)) = some t' ∧
    t'.vertices = Function.update t.vertices (face w.edge) v ∧ t'.value = t.value ∧
    t'.opp (face w.edge) = t.opp (face w.edge) ∧ t'.flags = (t.setup v (face w.edge)).flags ∧
    (∀ h, fid h = fid w → t'.adj (twin h.edge) = (nw A (mate h)).twin) ∧
    (∀ h, fid h = fid w → t'.undirEdge h.edge = t.undirEdge h.edge) ∧
    ∀ h u, fid h = fid w → m.first h = some u → t'.undirEdge (toPerm h.edge P0312) = η u
  only : ∀ k, (m'.tets.get k).isSome → (k ∉ E ∧ (m.tets.get k).isSome) ∨ (∃ w, Outer m E w ∧ k = A (fid w))
  inj : ∀ w w', Outer m E w → Outer m E w' → A (fid w) = A (fid w') → fid w = fid w'
  fresh : ∀ w, Outer m E w → A (fid w) ∈ E ∨ m.tets.get (A (fid w)) = none
  eold : ∀ e ue, m.edges.get e = some ue → (Touched m B e ∨ ∀ k t i, k ∈ E → m.tets.get k = some t → t.edges i ≠ e) →
    ∃ bw, m'.edges.get e = some { ue with boundary := false, boundaryWalker := bw } ∧ bw.tet = idMax
  enew : ∀ h u, Outer m E h → m.first h = some u → m'.edges.get (η u) = some (UEdge.new (u, v))
  eonly : ∀ e ue, m'.edges.get e = some ue →
    (∃ ue0, m.edges.get e = some ue0 ∧ (Touched m B e ∨ ∀ k t i, k ∈ E → m.tets.get k = some t → t.edges i ≠ e)) ∨
    ∃ h u, Outer m E h ∧ m.first h = some u ∧ e = η u
  verts : ∃ L, (∀ u, m'.vertices.get u = (setTets m.vertices L).get u) ∧
    (∀ p ∈ L, (∃ w, Outer m E w ∧ p = (v, (nw A w).perm P3210)) ∨ ∃ h, Outer m E h ∧ m.first h = some p.1 ∧ p.2 = nw A h) ∧
    (∀ h u, Outer m E h → m.first h = some u → ∃ p ∈ L, p.1 = u) ∧ ((∃ w, Outer m E w) → ∃ p ∈ L, p.1 = v)
  tri : TriUpd m m' E (B.map fun b => A (fid b))

section
variable {m : Mesh P V T} {v : VId} {B : List Walker} {E : List TId}

theorem setAdded_false {x : Vertex P V} (h : x.flags.edgeAdded = false) : x.setAdded false = x := by
  obtain ⟨a, ⟨b, c⟩, d, e⟩ := x
  simp only at h
  subst h
  rfl

theorem FI.run_or (h : FI m v B E) {fuel : Nat} (room : (m.tets.size + B.length ≤ idMax ∧ m.edges.size + 3 * B.length ≤ idMax) ∨
      (m.flipInVertexUnchecked v B E fuel).isSome) (hf : 3 * B.length ≤ fuel) :
    ∃ A mate η m', m.flipInVertexUnchecked v B E fuel = some (m', B.map (nw A)) ∧ IsMate m E mate ∧
      Flipped m v B E A mate η m' := by
  obtain ⟨mate, hmate⟩ := h.exists_mate
  have hmate : IsMate m E mate := hmate
  obtain ⟨m0, m1, m2, r0, r1, r2, h2⟩ := h.drop
  simp only [Mesh.flipInVertexUnchecked, r0, r1, r2, Option.bind_eq_bind, Option.bind_some] at room
  obtain ⟨A, m3, r3, h3⟩ := h.dup h2 (room.imp And.left fun room => by
    cases hx : Mesh.fiDups B m2 with
    | some r => rfl
    | none => simp [hx] at room)
  obtain ⟨m4, r4, h4⟩ := h.filled hmate h2 h3
  have es : m4.edges.size ≤ m.edges.size := by
    rw [h4.esize, show m3.edges = m2.edges by rw [h3.eq]]; exact h2.esize
  obtain ⟨m5, F, η, r5, h5, hF, -⟩ := h.edges_fold hmate h2 h3 h4 hf B (h.edgeInv_nil h2 h3 h4)
    (fun w hw => h.outer_mem hw) (room.imp (fun _ => by omega) fun room => by
      simp only [r3, Option.bind_some, r4] at room
      cases hx : (B.map (nw A)).foldlM (Mesh.fiEdges v fuel) m4 with
      | some r => rfl
      | none => simp [hx] at room)
  obtain ⟨σ, hσ, hση⟩ := h5.sp
  obtain ⟨m6, F', r6, e6, h6, hF', hF''⟩ := h.clears h2 h3 h4 B hσ h5.flags (fun w hw => h.outer_mem hw)
  have hFo : ∀ x u, Outer m E x → m.first x = some u → F u = true := by
    intro x u hx hu
    obtain ⟨b, hb, e⟩ := h.base hx
    exact hF b hb x u e hu
  have hF0 : ∀ u, F' u = false := by
    intro u
    cases hu : F u with
    | false => exact hF'' u hu
    | true =>
      obtain ⟨x, hx, hxu⟩ := h5.ok u hu
      obtain ⟨b, hb, e⟩ := h.base hx
      exact hF' b hb x u e hxu
  have t6 : m6.tets = m5.tets := by rw [e6]
  have d6 : m6.edges = m5.edges := by rw [e6]
  have i6 : m6.triMap = m2.triMap := by rw [e6]; show m5.triMap = _; rw [h5.eq]; show m4.triMap = _; rw [h4.eq]; show m3.triMap = _; rw [h3.eq]
  have tr2 : m2.trackTriMap = m.trackTriMap := by rw [h2.eq]
  have tr6 : m6.trackTriMap = m.trackTriMap := by
    rw [e6]; show m5.trackTriMap = _; rw [h5.eq]; show m4.trackTriMap = _; rw [h4.eq]; show m3.trackTriMap = _; rw [h3.eq]; exact tr2
  have gf2 : m4.ghostFlags = m.ghostFlags := by
    rw [h4.eq]; show m3.ghostFlags = _; rw [h3.eq]; show m2.ghostFlags = _; rw [h2.eq]
  have inn : ∀ w t, Outer m E w → m.tets.get w.tet = some t → ∃ t', m6.tets.get (A (fid w)) = some t' ∧
    t'.vertices = Function.update t.vertices (face w.edge) v ∧ t'.value = t.value ∧
    t'.opp (face w.edge) = t.opp (face w.edge) ∧ t'.flags = (t.setup v (face w.edge)).flags ∧
    (∀ h, fid h = fid w → t'.adj (twin h.edge) = (nw A (mate h)).twin) ∧
    (∀ h, fid h = fid w → t'.undirEdge h.edge = t.undirEdge h.edge) ∧
    ∀ h u, fid h = fid w → m.first h = some u → t'.undirEdge (toPerm h.edge P0312) = η u := by
    intro w t hw ht
    obtain ⟨t4, a1, a2, a3, a4, a5, a6, a7⟩ := h4.inn w t hw ht
    obtain ⟨es, b1, b2, b3⟩ := hσ.inn w t4 hw a1
    refine ⟨{ t4 with edges := es }, by rw [t6]; exact b1, a2, a4, a5, a6, a7, ?_, ?_⟩
    · intro x hx
      show es _ = t.edges _
      rw [b2 x hx, a3]
    · intro x u hx hu
      exact b3 x (η u) hx (hση x u (hw.congr hx) hu (hFo x u (hw.congr hx) hu))
  have hN : ∀ k ∈ B.map (fun b => A (fid b)), ∃ t, m6.tets.get k = some t := by
    intro k hk
    obtain ⟨b, hb, rfl⟩ := List.mem_map.1 hk
    obtain ⟨t, ht⟩ := h.get (h.outer_mem hb)
    obtain ⟨t', ht', -⟩ := inn b t (h.outer_mem hb) ht
    exact ⟨t', ht'⟩
  obtain ⟨tm, r7, h7⟩ := m6.triInsertTets_spec _ hN
  have hpair : ∀ u, F u = true ↔ ∃ x, Outer m E x ∧ m.first x = some u :=
    fun u => ⟨h5.ok u, fun ⟨x, hx, hu⟩ => hFo x u hx hu⟩
  refine ⟨A, mate, η, { m6 with triMap := tm }, ?_, hmate, ?_⟩
  · have hmap : (B.map (nw A)).map (·.tet) = B.map fun b => A (fid b) := by
      rw [List.map_map]; rfl
    simp only [Mesh.flipInVertexUnchecked, r0, r1, r2, r3, r4, r5, r6, hmap, r7, Option.bind_eq_bind, Option.bind_some]
    rfl
  · refine { eq := ?_, wf := ⟨h6.wf, d6 ▸ h5.ewf, t6 ▸ hσ.wf⟩, out := ?_, inn := inn, only := ?_, inj := h3.inj, fresh := h3.fresh,
             eold := ?_, enew := ?_, eonly := ?_, verts := ?_, tri := ?_ }
    · have g : m6.ghostFlags = m.ghostFlags := by
        rw [h6.ghost, hF0, gf2]
        have := h.tidy.ghost
        revert this
        generalize m.ghostFlags = g
        obtain ⟨a, b⟩ := g
        rintro rfl
        rfl
      have c6 : m6.center = m.center ∧ m6.defaultTet = m.defaultTet := by
        rw [e6]; show m5.center = _ ∧ m5.defaultTet = _; rw [h5.eq]; show m4.center = _ ∧ m4.defaultTet = _; rw [h4.eq]
        show m3.center = _ ∧ m3.defaultTet = _; rw [h3.eq]; show m2.center = _ ∧ m2.defaultTet = _; rw [h2.eq]; exact ⟨rfl, rfl⟩
      obtain ⟨x1, x2, x3, x4, x5, x6, x7, x8⟩ := m6
      simp only at g tr6 c6
      show Mesh.mk _ _ _ _ _ _ _ _ = Mesh.mk _ _ _ _ _ _ _ _
      rw [g, tr6, c6.1, c6.2]
    · intro k t hk ht
      have hne : ∀ w, Outer m E w → k ≠ A (fid w) := by
        rintro w hw rfl
        rcases h3.fresh w hw with h' | h'
        · exact hk h'
        · rw [h'] at ht; cases ht
      show m6.tets.get k = _
      rw [t6, hσ.out k hne, h4.out k hne, h3.out k t hk ht]
    · intro k hk
      have hk : (m6.tets.get k).isSome := hk
      by_cases hc : ∃ w, Outer m E w ∧ k = A (fid w)
      · exact .inr hc
      · have hne : ∀ w, Outer m E w → k ≠ A (fid w) := fun w hw e => hc ⟨w, hw, e⟩
        rw [t6, hσ.out k hne, h4.out k hne] at hk
        exact h3.only k hk
    · intro e ue he hc
      show ∃ bw, m6.edges.get e = _ ∧ _
      rw [d6]
      have d3 : m3.edges = m2.edges := by rw [h3.eq]
      have : ∃ b, m3.edges.get e = some { ue with boundary := b } := by
        rw [d3]
        by_cases ht : Touched m B e
        · exact ⟨true, h2.touched e ue ht he⟩
        · refine ⟨ue.boundary, ?_⟩
          rw [h2.kept e ht (hc.resolve_left ht), he]
      obtain ⟨b, hb⟩ := this
      obtain ⟨bw, a1, a2⟩ := h4.edges e _ hb
      exact ⟨bw, h5.eold e _ a1, a2⟩
    · intro x u hx hu
      show m6.edges.get _ = _
      rw [d6]
      exact (h5.enew u (hFo x u hx hu)).2
    · intro e ue he
      have he : m6.edges.get e = some ue := he
      rw [d6] at he
      rcases h5.eonly e ue he with a1 | ⟨u, hu, rfl⟩
      · left
        have d3 : m3.edges = m2.edges := by rw [h3.eq]
        have a2 : ∃ ue3, m2.edges.get e = some ue3 := by
          rw [← d3]
          cases hc : m3.edges.get e with
          | none => rw [h4.eonly e hc] at a1; cases a1
          | some ue3 => exact ⟨_, rfl⟩
        obtain ⟨ue3, a2⟩ := a2
        by_cases ht : Touched m B e
        · obtain ⟨b, hb, t, h12, h13⟩ := id ht
          obtain ⟨c, hc⟩ : ∃ c, e = t.undirEdge c := by
            rcases h13 with h13 | h13 | h13 <;> exact ⟨_, h13⟩
          obtain ⟨ue0, h14, -⟩ := h.cons.eptr _ t c h12
          exact ⟨ue0, hc ▸ h14, .inl ht⟩
        · have hno : ∀ k t i, k ∈ E → m.tets.get k = some t → t.edges i ≠ e := by
            intro k t i hk hkt hi
            rw [h2.gone e k t i ht hk hkt hi] at a2
            cases a2
          rw [h2.kept e ht hno] at a2
          exact ⟨ue3, a2, .inr hno⟩
      · obtain ⟨x, hx, hxu⟩ := h5.ok u hu
        exact .inr ⟨x, u, hx, hxu, rfl⟩
    · obtain ⟨L, hL, hL'⟩ := h4.verts
      refine ⟨L, fun u => ?_, hL'⟩
      show m6.vertices.get u = _
      rw [h6.get, hL, hF0]
      cases hx : (setTets m.vertices L).get u with
      | none => rfl
      | some x =>
        have : x.flags.edgeAdded = false := by
          rcases setTets_some hx with ⟨-, h8⟩ | ⟨w, y, -, h8, rfl⟩
          · exact h.tidy.vertices _ _ h8
          · exact h.tidy.vertices _ y h8
        rw [Option.map_some, setAdded_false this]
    · refine TriUpd.of (ma := m) (tm := m2.triMap) rfl tr6 rfl i6 ?_ h2.tri ?_
      · intro k hk
        obtain ⟨t, ht⟩ := Option.isSome_iff_exists.1 (h.fill.live k hk)
        exact ⟨t, t, ht, ht, rfl⟩
      · exact h7

theorem FI.run (h : FI m v B E) (room : m.tets.size + B.length ≤ idMax) (eroom : m.edges.size + 3 * B.length ≤ idMax)
    {fuel : Nat} (hf : 3 * B.length ≤ fuel) :
    ∃ A mate η m', m.flipInVertexUnchecked v B E fuel = some (m', B.map (nw A)) ∧ IsMate m E mate ∧
      Flipped m v B E A mate η m' := h.run_or (.inl ⟨room, eroom⟩) hf

end
end Tet
