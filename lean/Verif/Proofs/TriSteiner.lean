import Verif.Proofs.TriLoop
import Verif.Proofs.TriCover

/-!
# Recovering a triangle with Steiner points: what stays true in the loop
-/

namespace Tet
open Spec Vec4

variable {K V T C : Type} [Field K] [LinearOrder K] [IsStrictOrderedRing K] {m m1 m2 m3 : Mesh (Pt K) V T}

/-- What is known of the boundary before the loop. -/
structure Framed (m3 : Mesh (Pt K) V T) (xy : Pt K → K × K) (p0 p1 p2 : Pt K) (base : List VId) (L : List (VId × VId)) : Prop where
  ends : ∀ e ∈ L, e.1 ∈ base ∧ e.2 ∈ base
  outer : ∀ e ∈ L, ∃ pa pb, At m3 e.1 pa ∧ At m3 e.2 pb ∧ ∀ pc, InClosedTri p0 p1 p2 pc → 0 ≤ planeSide (xy pa) (xy pb) (xy pc)
  locked : ∀ e ∈ L, LockedEdge m3 e.1 e.2

/-- What stays true in the loop: `ps` are the pieces so far. -/
structure LoopInv (ops : CdtOps K C) (xy : Pt K → K × K) (p0 p1 p2 : Pt K) (x0 : V) (m3 : Mesh (Pt K) V T) (base : List VId)
    (L : List (VId × VId)) (st : TriSteiner K V T C) (ps : List V3) : Prop where
  sound : Sound st.mesh
  full : FullLocks st.mesh
  grown : Grown m3 st.mesh st.inside
  verts : st.vertices = base ++ st.inside
  place : ∀ v ∈ st.vertices, ∃ p i, At st.mesh v p ∧ InClosedTri p0 p1 p2 p ∧ st.toCdt v = some i ∧ ops.vertex st.cdt i = some (xy p)
  back : ∀ i v, st.fromCdt i = some v → v ∈ st.vertices ∧ st.toCdt v = some i
  val : ∀ s ∈ st.inside, ∃ y, st.mesh.vertices.get s = some y ∧ y.value = x0
  nodupE : st.edges.Nodup
  edges : ∀ e, e ∈ st.edges ↔ (e ∈ L ∨ (rev2 e ∈ ps.flatMap triEdges ∧ rev2 e ∉ L)) ∧ e ∉ ps.flatMap triEdges
  pieces : ∀ s ∈ ps, LockedTri st.mesh s ∧ (s.1 ∈ st.vertices ∧ s.2.1 ∈ st.vertices ∧ s.2.2 ∈ st.vertices) ∧
    ∃ a b c, At st.mesh s.1 a ∧ At st.mesh s.2.1 b ∧ At st.mesh s.2.2 c ∧ 0 < planeSide (xy a) (xy b) (xy c)
  nodup : (ps.flatMap triEdges).Nodup
  ltri : ∀ s, LockedTri st.mesh s ↔ LockedTri m3 s ∨ ∃ s' ∈ ps, SameThree s s'
  ledge : ∀ a b, LockedEdge st.mesh a b ↔ LockedEdge m3 a b ∨ (a, b) ∈ ps.flatMap triEdges ∨ (b, a) ∈ ps.flatMap triEdges

section
variable {ops : CdtOps K C} {xy : Pt K → K × K} {p0 p1 p2 : Pt K} {x0 : V} {base : List VId} {L : List (VId × VId)}
  {st : TriSteiner K V T C} {ps : List V3}

theorem mem_pieceSides {e : VId × VId} : e ∈ ps.flatMap triEdges ↔ ∃ s ∈ ps, e ∈ triEdges s := List.mem_flatMap

/-- The sides of pieces have their end points among the vertices. -/
theorem LoopInv.side_ends (hi : LoopInv ops xy p0 p1 p2 x0 m3 base L st ps) {e : VId × VId} (he : e ∈ ps.flatMap triEdges) :
    e.1 ∈ st.vertices ∧ e.2 ∈ st.vertices := by
  obtain ⟨s, hs, he⟩ := mem_pieceSides.1 he
  obtain ⟨-, ⟨h1, h2, h3⟩, -⟩ := hi.pieces s hs
  simp only [triEdges, List.mem_cons, List.not_mem_nil, or_false] at he
  rcases he with rfl | rfl | rfl
  · exact ⟨h1, h2⟩
  · exact ⟨h2, h3⟩
  · exact ⟨h3, h1⟩

/-- The edges that are left are in the mesh, with vertices in the triangle. -/
theorem LoopInv.edge_ok (hF : Framed m3 xy p0 p1 p2 base L) (hi : LoopInv ops xy p0 p1 p2 x0 m3 base L st ps) {e : VId × VId} (he : e ∈ st.edges) :
    LockedEdge st.mesh e.1 e.2 ∧ e.1 ∈ st.vertices ∧ e.2 ∈ st.vertices := by
  rcases ((hi.edges e).1 he).1 with h | ⟨h, -⟩
  · obtain ⟨h1, h2⟩ := hF.ends e h
    exact ⟨(hi.ledge _ _).2 (.inl (hF.locked e h)), by rw [hi.verts]; exact List.mem_append_left _ h1, by rw [hi.verts]; exact List.mem_append_left _ h2⟩
  · obtain ⟨h1, h2⟩ := hi.side_ends h
    exact ⟨(hi.ledge _ _).2 (.inr (.inr h)), h2, h1⟩

/-- The triangles of the region. -/
theorem LoopInv.region (hc : IsCdt ops) (hi : LoopInv ops xy p0 p1 p2 x0 m3 base L st ps) {fs : List Nat} {tris : List V3}
    (h : (fs.mapM fun f => do
      let (a, b, c) ← ops.triangle st.cdt f
      return (← st.fromCdt a, ← st.fromCdt b, ← st.fromCdt c)) = some tris) :
    ∀ t ∈ tris, [t.1, t.2.1, t.2.2].Nodup ∧ ∀ v ∈ [t.1, t.2.1, t.2.2], ∃ p, At st.mesh v p ∧ InClosedTri p0 p1 p2 p := by
  intro t ht
  obtain ⟨f, -, hf⟩ := mapM_from h ht
  simp only [Option.bind_eq_bind] at hf
  obtain ⟨⟨a, b, c⟩, h1, hf⟩ := Option.bind_eq_some_iff.1 hf
  obtain ⟨va, h2, hf⟩ := Option.bind_eq_some_iff.1 hf
  obtain ⟨vb, h3, hf⟩ := Option.bind_eq_some_iff.1 hf
  obtain ⟨vc, h4, hf⟩ := Option.bind_eq_some_iff.1 hf
  cases hf
  obtain ⟨a1, a2⟩ := hi.back _ _ h2
  obtain ⟨b1, b2⟩ := hi.back _ _ h3
  obtain ⟨c1, c2⟩ := hi.back _ _ h4
  obtain ⟨d1, d2, d3⟩ := hc.triangle _ _ _ _ _ h1
  refine ⟨?_, ?_⟩
  · simp only [List.nodup_cons, List.mem_cons, List.not_mem_nil, or_false, not_or, not_false_eq_true, List.nodup_nil, and_true]
    refine ⟨⟨?_, ?_⟩, ?_⟩
    · rintro rfl; rw [a2] at b2; cases b2; exact d1 rfl
    · rintro rfl; rw [a2] at c2; cases c2; exact d3 rfl
    · rintro rfl; rw [b2] at c2; cases c2; exact d2 rfl
  · intro v hv
    simp only [List.mem_cons, List.not_mem_nil, or_false] at hv
    have : v ∈ st.vertices := by rcases hv with rfl | rfl | rfl <;> assumption
    obtain ⟨p, i, k1, k2, -⟩ := hi.place v this
    exact ⟨p, k1, k2⟩

/-- A Steiner point keeps the invariant. -/
theorem LoopInv.split (hc : IsCdt ops) (hi : LoopInv ops xy p0 p1 p2 x0 m3 base L st ps) {e : VId × VId} {s : VId} {p : Pt K} {m' : Mesh (Pt K) V T}
    (hp : InClosedTri p0 p1 p2 p) (hs : Split st.mesh m' (.edge e) s p x0) :
    LoopInv ops xy p0 p1 p2 x0 m3 base L { st with
      mesh := m'
      cdt := (ops.insert st.cdt (xy p)).1
      toCdt := Function.update st.toCdt s (some (ops.insert st.cdt (xy p)).2)
      fromCdt := Function.update st.fromCdt (ops.insert st.cdt (xy p)).2 (some s)
      inside := st.inside ++ [s]
      vertices := st.vertices ++ [s] } ps := by
  have hg := hs.grown
  have hne : ∀ v ∈ st.vertices, v ≠ s := by
    rintro v hv rfl
    obtain ⟨q, i, ⟨-, y, hy, -⟩, -⟩ := hi.place v hv
    rw [hs.fresh] at hy
    cases hy
  have htri : ∀ t, LockedTri m' t ↔ LockedTri st.mesh t := by
    rintro ⟨a, b, c⟩
    refine ⟨hs.tris _, fun h => ?_⟩
    obtain ⟨h1, h2, h3⟩ := hi.full.all hi.sound.consistent h
    exact hs.kept a b c h h1 h2 h3
  refine ⟨hs.sound, ?_, hi.grown.trans hg, ?_, ?_, ?_, ?_, hi.nodupE, hi.edges, ?_, hi.nodup, ?_, ?_⟩
  · intro a b c h
    exact (hs.edges a b).2 (hi.full a b c ((htri _).1 h))
  · simp only [hi.verts, List.append_assoc]
  · intro v hv
    rcases List.mem_append.1 hv with hv | hv
    · obtain ⟨q, i, h1, h2, h3, h4⟩ := hi.place v hv
      exact ⟨q, i, hg.at h1, h2, (Function.update_of_ne (hne v hv) _ _).trans h3, hc.keep _ _ _ _ h4⟩
    · obtain rfl := List.mem_singleton.1 hv
      exact ⟨p, _, hs.new.1, hp, Function.update_self .., hc.insert _ _⟩
  · intro i v h
    simp only at h ⊢
    by_cases hj : i = (ops.insert st.cdt (xy p)).2
    · subst hj
      rw [Function.update_self] at h
      cases h
      exact ⟨by simp, Function.update_self ..⟩
    · rw [Function.update_of_ne hj] at h
      obtain ⟨h1, h2⟩ := hi.back i v h
      exact ⟨List.mem_append_left _ h1, by rw [Function.update_of_ne (hne v h1)]; exact h2⟩
  · intro v hv
    rcases List.mem_append.1 hv with hv | hv
    · exact hg.value (hi.val v hv)
    · obtain rfl := List.mem_singleton.1 hv
      exact hs.new.2
  · intro t ht
    obtain ⟨h1, ⟨h2, h3, h4⟩, a, b, c, h5, h6, h7, h8⟩ := hi.pieces t ht
    exact ⟨(htri t).2 h1, ⟨List.mem_append_left _ h2, List.mem_append_left _ h3, List.mem_append_left _ h4⟩, a, b, c, hg.at h5, hg.at h6, hg.at h7, h8⟩
  · intro t
    exact (htri t).trans (hi.ltri t)
  · intro a b
    exact (hs.edges a b).trans (hi.ledge a b)

end

/-! ### Locking a piece -/

section
variable {ops : CdtOps K C} {xy : Pt K → K × K} {p0 p1 p2 X Y Z : Pt K} {x0 : V} {base : List VId} {L : List (VId × VId)}
  {st : TriSteiner K V T C} {ps : List V3}

theorem planeSide_turn (a b c : K × K) : planeSide b c a = planeSide a b c := by
  unfold planeSide
  ring

theorem hasTri_turn {a b c : VId} (h : HasTri m (a, b, c)) : HasTri m (b, c, a) := by
  obtain ⟨w, h⟩ := h
  exact ⟨_, (tri_turn h).1⟩

/-- On the left of a side of a piece there is only this piece. -/
theorem LoopInv.side_third (hf : Flat xy p0 p1 p2 X Y Z) (hi : LoopInv ops xy p0 p1 p2 x0 m3 base L st ps) {a b c : VId} {pa pb pc : Pt K}
    (ht : HasTri st.mesh (a, b, c)) (ha : At st.mesh a pa) (hb : At st.mesh b pb) (hcc : At st.mesh c pc) (hcv : c ∈ st.vertices)
    (hpos : 0 < planeSide (xy pa) (xy pb) (xy pc)) (h : (a, b) ∈ ps.flatMap triEdges) :
    (b, c) ∈ ps.flatMap triEdges ∧ (c, a) ∈ ps.flatMap triEdges := by
  have key : ∀ d pd, HasTri st.mesh (a, b, d) → d ∈ st.vertices → At st.mesh d pd → a ∈ st.vertices → b ∈ st.vertices →
      0 < planeSide (xy pa) (xy pb) (xy pd) → d = c := by
    intro d pd h1 h2 h3 h4 h5 h6
    have hpl : ∀ v ∈ st.vertices, ∀ q, At st.mesh v q → OnPlane p0 p1 p2 q := by
      intro v hv q hq
      obtain ⟨q', _, k1, k2, -⟩ := hi.place v hv
      rw [at_same hq k1]
      exact k2.onPlane
    exact tri_beside hi.sound hf h1 ht ha hb h3 hcc (hpl a h4 _ ha) (hpl b h5 _ hb) (hpl d h2 _ h3) (hpl c hcv _ hcc) h6 hpos
  obtain ⟨⟨u, v, w⟩, hs, he⟩ := mem_pieceSides.1 h
  obtain ⟨hl, ⟨k1, k2, k3⟩, q1, q2, q3, a1, a2, a3, hq⟩ := hi.pieces _ hs
  obtain ⟨wk, hwk, -⟩ := hl
  have htr : HasTri st.mesh (u, v, w) := ⟨wk, hwk⟩
  simp only [triEdges, List.mem_cons, List.not_mem_nil, or_false, Prod.mk.injEq] at he
  rcases he with ⟨rfl, rfl⟩ | ⟨rfl, rfl⟩ | ⟨rfl, rfl⟩
  · obtain rfl := at_same a1 ha
    obtain rfl := at_same a2 hb
    obtain rfl := key w q3 htr k3 a3 k1 k2 hq
    exact ⟨mem_pieceSides.2 ⟨_, hs, by simp [triEdges]⟩, mem_pieceSides.2 ⟨_, hs, by simp [triEdges]⟩⟩
  · obtain rfl := at_same a2 ha
    obtain rfl := at_same a3 hb
    obtain rfl := key u q1 (hasTri_turn htr) k1 a1 k2 k3 (by rw [planeSide_turn]; exact hq)
    exact ⟨mem_pieceSides.2 ⟨_, hs, by simp [triEdges]⟩, mem_pieceSides.2 ⟨_, hs, by simp [triEdges]⟩⟩
  · obtain rfl := at_same a3 ha
    obtain rfl := at_same a1 hb
    obtain rfl := key v q2 (hasTri_turn (hasTri_turn htr)) k2 a2 k3 k1 (by rw [planeSide_turn, planeSide_turn]; exact hq)
    exact ⟨mem_pieceSides.2 ⟨_, hs, by simp [triEdges]⟩, mem_pieceSides.2 ⟨_, hs, by simp [triEdges]⟩⟩

/-- A new piece keeps the invariant. -/
theorem LoopInv.lock (hc : IsCdt ops) (hf : Flat xy p0 p1 p2 X Y Z) (hF : Framed m3 xy p0 p1 p2 base L)
    (hi : LoopInv ops xy p0 p1 p2 x0 m3 base L st ps) {a b c : VId} {w : Walker} {pa pb pc : Pt K} (he : (a, b) ∈ st.edges)
    (hw : st.mesh.tri w = some (a, b, c)) (ha : At st.mesh a pa) (hb : At st.mesh b pb) (hcc : At st.mesh c pc) (hcv : c ∈ st.vertices)
    (hpos : 0 < planeSide (xy pa) (xy pb) (xy pc)) {m' : Mesh (Pt K) V T} (hl : st.mesh.lockPiece w = some m') {s' : C × List (VId × VId)}
    (hcl : [(a, b), (b, c), (c, a)].foldlM (closeSide ops st.toCdt) (st.cdt, st.edges) = some s') :
    m'.tri w = some (a, b, c) ∧ LoopInv ops xy p0 p1 p2 x0 m3 base L { st with mesh := m', cdt := s'.1, edges := s'.2 } ((a, b, c) :: ps) := by
  obtain ⟨-, hav, hbv⟩ := hi.edge_ok hF he
  simp only at hav hbv
  have ht : HasTri st.mesh (a, b, c) := ⟨w, hw⟩
  have hd : a ≠ b ∧ b ≠ c ∧ c ≠ a := by
    obtain ⟨d, h⟩ := tri_tet4 hw
    have := hi.sound.consistent.distinct _ _ _ _ _ h
    simp only [List.nodup_cons, List.mem_cons, List.not_mem_nil, or_false, not_or] at this
    exact ⟨this.1.1, this.2.1.1, fun h => this.1.2.1 h.symm⟩
  obtain ⟨m'', e1, e2, e3, e4, e5, e6, e7⟩ := lockPiece_ok hi.sound hw
  rw [hl] at e1
  cases e1
  obtain ⟨c1, c2, c3⟩ := closeSides_ok hc hcl hi.nodupE hd
  simp only at c1 c3
  have hg : Grown st.mesh m' [] := grown_of_same e3 e4
  have hE := hi.edges
  -- the sides are new
  have n1 : (a, b) ∉ ps.flatMap triEdges := ((hE _).1 he).2
  have n2 : (b, c) ∉ ps.flatMap triEdges := fun h =>
    n1 (hi.side_third hf (hasTri_turn ht) hb hcc ha hav (by rw [planeSide_turn]; exact hpos) h).2
  have n3 : (c, a) ∉ ps.flatMap triEdges := fun h =>
    n1 (hi.side_third hf (hasTri_turn (hasTri_turn ht)) hcc ha hb hbv (by rw [planeSide_turn, planeSide_turn]; exact hpos) h).1
  -- and not sides of the boundary in the other direction
  have hcl' : ∀ v ∈ st.vertices, ∀ q, At st.mesh v q → InClosedTri p0 p1 p2 q := by
    intro v hv q hq
    obtain ⟨q', _, k1, k2, -⟩ := hi.place v hv
    rw [at_same hq k1]
    exact k2
  have hrev : ∀ u v z qu qv qz, At st.mesh u qu → At st.mesh v qv → At st.mesh z qz → z ∈ st.vertices →
      0 < planeSide (xy qu) (xy qv) (xy qz) → (v, u) ∉ L := by
    intro u v z qu qv qz h1 h2 h3 h4 h5 h6
    obtain ⟨r1, r2, k1, k2, k3⟩ := hF.outer _ h6
    have := k3 qz (hcl' z h4 qz h3)
    rw [at_same (hi.grown.at k1) h2, at_same (hi.grown.at k2) h1, planeSide_rev] at this
    linarith
  have r1 : (b, a) ∉ L := hrev a b c pa pb pc ha hb hcc hcv hpos
  have r2 : (c, b) ∉ L := hrev b c a pb pc pa hb hcc ha hav (by rw [planeSide_turn]; exact hpos)
  have r3 : (a, c) ∉ L := hrev c a b pc pa pb hcc ha hb hbv (by rw [planeSide_turn, planeSide_turn]; exact hpos)
  obtain ⟨d1, d2, d3⟩ := hd
  have hlock' : LockedTri m' (a, b, c) := (e6 _).2 (.inr (List.Perm.refl _))
  refine ⟨(e5 w).trans hw, e2, ?_, ?_, hi.verts, ?_, hi.back, ?_, c2, ?_, ?_, ?_, ?_, ?_⟩
  · intro x y z h
    rw [e7]
    rcases (e6 _).1 h with h | h
    · exact .inl (hi.full x y z h)
    · right
      have h3 := sameThree_six3.1 (show SameThree (a, b, c) (x, y, z) from h.symm)
      simp only [six3, List.mem_cons, List.not_mem_nil, or_false, Prod.mk.injEq] at h3
      clear * - h3
      rcases h3 with ⟨rfl, rfl, rfl⟩ | ⟨rfl, rfl, rfl⟩ | ⟨rfl, rfl, rfl⟩ | ⟨rfl, rfl, rfl⟩ | ⟨rfl, rfl, rfl⟩ | ⟨rfl, rfl, rfl⟩ <;> simp [triEdges]
  · have := hi.grown.trans hg
    rwa [List.append_nil] at this
  · intro v hv
    obtain ⟨q, i, h1, h2, h3, h4⟩ := hi.place v hv
    exact ⟨q, i, hg.at h1, h2, h3, (c1 i).trans h4⟩
  · intro v hv
    exact hg.value (hi.val v hv)
  · rintro ⟨x, y⟩
    have := hE (x, y)
    have g1 := hE (a, b)
    have g2 := hE (b, c)
    have g3 := hE (c, a)
    have g4 := c3 (x, y)
    clear * - this g1 g2 g3 g4 n1 n2 n3 r1 r2 r3 d1 d2 d3
    simp only [List.flatMap_cons, List.mem_append]
    generalize List.flatMap triEdges ps = S at *
    simp only [triEdges, rev2, List.mem_cons, List.not_mem_nil, or_false, Prod.mk.injEq] at *
    rw [g4]
    clear g4
    by_cases h1 : x = a ∧ y = b
    · obtain ⟨rfl, rfl⟩ := h1
      grind
    by_cases h2 : x = b ∧ y = c
    · obtain ⟨rfl, rfl⟩ := h2
      grind
    by_cases h3 : x = c ∧ y = a
    · obtain ⟨rfl, rfl⟩ := h3
      grind
    by_cases h4 : y = a ∧ x = b
    · obtain ⟨rfl, rfl⟩ := h4
      grind
    by_cases h5 : y = b ∧ x = c
    · obtain ⟨rfl, rfl⟩ := h5
      grind
    by_cases h6 : y = c ∧ x = a
    · obtain ⟨rfl, rfl⟩ := h6
      grind
    simp only [h1, h2, h3, h4, h5, h6, or_false, false_or, not_false_eq_true, and_true, false_and]
    exact this
  · intro s hs
    rcases List.mem_cons.1 hs with rfl | hs
    · exact ⟨hlock', ⟨hav, hbv, hcv⟩, pa, pb, pc, hg.at ha, hg.at hb, hg.at hcc, hpos⟩
    · obtain ⟨h1, h2, qa, qb, qc, h5, h6, h7, h8⟩ := hi.pieces s hs
      exact ⟨(e6 s).2 (.inl h1), h2, qa, qb, qc, hg.at h5, hg.at h6, hg.at h7, h8⟩
  · rw [List.flatMap_cons, List.nodup_append]
    refine ⟨?_, hi.nodup, ?_⟩
    · simp only [triEdges, List.nodup_cons, List.mem_cons, List.not_mem_nil, or_false, Prod.mk.injEq, not_or, not_false_eq_true, List.nodup_nil, and_true]
      clear * - d1 d2 d3
      grind
    · rintro x hx y hy rfl
      simp only [triEdges, List.mem_cons, List.not_mem_nil, or_false] at hx
      rcases hx with rfl | rfl | rfl
      · exact n1 hy
      · exact n2 hy
      · exact n3 hy
  · intro s
    rw [e6, hi.ltri]
    simp only [List.mem_cons, exists_eq_or_imp]
    exact or_assoc.trans (or_congr_right or_comm)
  · intro x y
    rw [e7, hi.ledge]
    simp only [List.flatMap_cons, List.mem_append]
    clear * -
    tauto

end
end Tet
