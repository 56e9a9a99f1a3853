import Verif.Proofs.TriRounds

/-!
# Recovering a triangle with Steiner points: the pieces pave the triangle
-/

namespace Tet
open Spec Vec4

variable {K V T C : Type} [Field K] [LinearOrder K] [IsStrictOrderedRing K] {m m1 m2 m3 : Mesh (Pt K) V T}

theorem pairs_map {α β : Type} (f : α → β) : ∀ l : List α, Spec.pairs (l.map f) = (Spec.pairs l).map fun e => (f e.1, f e.2)
  | [] => rfl
  | [_] => rfl
  | a :: b :: l => by
    have := pairs_map f (b :: l)
    simp only [List.map_cons, Spec.pairs] at this ⊢
    rw [this]

theorem pairs_zip {α : Type} : ∀ (l : List α) (x y : α), Spec.pairs (x :: l ++ [y]) = (x :: l).zip (l ++ [y])
  | [], x, y => rfl
  | a :: l, x, y => by
    have := pairs_zip l a y
    simp only [List.cons_append, Spec.pairs, List.zip_cons_cons] at this ⊢
    rw [this]

/-- The pairs of neighbors around the triangle. -/
def sidePairs (t : V3) (l0 l1 l2 : List VId) : List (VId × VId) :=
  Spec.pairs (t.1 :: l0 ++ [t.2.1]) ++ Spec.pairs (t.2.1 :: l1 ++ [t.2.2]) ++ Spec.pairs (t.2.2 :: l2 ++ [t.1])

theorem around_eq (t : V3) (l0 l1 l2 : List VId) : around (triLoop t l0 l1 l2) = sidePairs t l0 l1 l2 := by
  have h : around (triLoop t l0 l1 l2) = Spec.pairs (t.1 :: (l0 ++ t.2.1 :: l1 ++ t.2.2 :: l2) ++ [t.1]) := by
    rw [pairs_zip]
    simp [around, triLoop]
  rw [h, sidePairs]
  have e : t.1 :: (l0 ++ t.2.1 :: l1 ++ t.2.2 :: l2) ++ [t.1] = (t.1 :: l0) ++ t.2.1 :: (l1 ++ t.2.2 :: (l2 ++ [t.1])) := by simp
  rw [e, pairs_append, List.append_assoc]
  congr 1
  have e' : t.2.1 :: (l1 ++ t.2.2 :: (l2 ++ [t.1])) = (t.2.1 :: l1) ++ t.2.2 :: (l2 ++ [t.1]) := by simp
  rw [e', pairs_append]
  simp

theorem around_fst (l : List VId) : (around l).map Prod.fst = l := by
  cases l with
  | nil => rfl
  | cons v l => rw [around, List.map_fst_zip (by simp)]

theorem around_nodup {l : List VId} (h : l.Nodup) : (around l).Nodup := by
  refine List.Nodup.of_map Prod.fst ?_
  rwa [around_fst]

theorem around_mem {l : List VId} {e : VId × VId} (h : e ∈ around l) : e.1 ∈ l ∧ e.2 ∈ l := by
  cases l with
  | nil => cases h
  | cons v l =>
    have := List.of_mem_zip (show (e.1, e.2) ∈ (v :: l).zip (l ++ [v]) from h)
    refine ⟨this.1, ?_⟩
    simpa [or_comm] using this.2

variable {xy : Pt K → K × K} {p0 p1 p2 X Y Z : Pt K}

theorem along_comb (p0 p1 : Pt K) (t : K) : along p0 p1 t = comb [(1 - t, p0), (t, p1), (0, p0)] := by
  rw [comb3]
  simp only [along, Pt.mk.injEq]
  refine ⟨?_, ?_, ?_⟩ <;> ring

theorem Flat.xy_along (hf : Flat xy p0 p1 p2 X Y Z) (a b : Pt K) (t : K) :
    xy (along a b t) = ((xy a).1 + t * ((xy b).1 - (xy a).1), (xy a).2 + t * ((xy b).2 - (xy a).2)) := by
  rw [along_comb, hf.affine _ _ _ _ _ _ (by ring)]
  refine Prod.ext ?_ ?_ <;> simp only <;> ring

/-- The sum of the crossings over a side of the triangle. -/
theorem side_sum (hf : Flat xy p0 p1 p2 X Y Z) (q : K × K) {a b : Pt K} {va vb : VId} {l : List VId} {ts : List K} (pos : VId → K × K)
    (ha : pos va = xy a) (hb : pos vb = xy b) (hl : List.Forall₂ (fun s t => pos s = xy (along a b t)) l ts) (hch : (0 :: ts ++ [1]).IsChain (· < ·)) :
    ((Spec.pairs (va :: l ++ [vb])).map fun e => crosses q (pos e.1) (pos e.2)).sum = crosses q (xy a) (xy b) := by
  have h0 : ∀ t, xy (along a b t) = ((xy a).1 + t * ((xy b).1 - (xy a).1), (xy a).2 + t * ((xy b).2 - (xy a).2)) := hf.xy_along a b
  have h1 : along a b 0 = a := by simp [along]
  have h2 : along a b 1 = b := by simp [along]
  have hmap : (va :: l ++ [vb]).map pos = (0 :: (ts ++ [1])).map fun t => xy (along a b t) := by
    have : l.map pos = ts.map fun t => xy (along a b t) := by
      induction hl with
      | nil => rfl
      | cons h _ ih => simp only [List.map_cons, h]; rw [ih (by
          have h3 := List.isChain_iff_pairwise.1 hch
          refine List.isChain_iff_pairwise.2 (h3.sublist ?_)
          simp)]
    simp [this, ha, hb, h1, h2]
  have := crosses_chain q (fun t => xy (along a b t)) h0 (ts ++ [1]) 0 (by simpa using hch)
  rw [← hmap, pairs_map, List.map_map] at this
  refine Eq.trans ?_ (this.trans ?_)
  · rfl
  · simp [h1, h2]

variable {ops : CdtOps K C} {x0 : V} {base : List VId} {L : List (VId × VId)} {st : TriSteiner K V T C} {ps : List V3}

/-- A side of a piece, with the third corner. -/
theorem LoopInv.side_of (hi : LoopInv ops xy p0 p1 p2 x0 m3 base L st ps) {e : VId × VId} (he : e ∈ ps.flatMap triEdges) :
    ∃ z a b c, z ∈ st.vertices ∧ At st.mesh e.1 a ∧ At st.mesh e.2 b ∧ At st.mesh z c ∧ 0 < planeSide (xy a) (xy b) (xy c) := by
  obtain ⟨⟨u, v, w⟩, hs, he⟩ := mem_pieceSides.1 he
  obtain ⟨-, ⟨k1, k2, k3⟩, q1, q2, q3, a1, a2, a3, hq⟩ := hi.pieces _ hs
  simp only [triEdges, List.mem_cons, List.not_mem_nil, or_false] at he
  rcases he with rfl | rfl | rfl
  · exact ⟨w, q1, q2, q3, k3, a1, a2, a3, hq⟩
  · exact ⟨u, q2, q3, q1, k1, a2, a3, a1, by rw [planeSide_turn]; exact hq⟩
  · exact ⟨v, q3, q1, q2, k2, a3, a1, a2, by rw [planeSide_turn, planeSide_turn]; exact hq⟩

theorem LoopInv.closed (hi : LoopInv ops xy p0 p1 p2 x0 m3 base L st ps) {v : VId} (hv : v ∈ st.vertices) {q : Pt K} (hq : At st.mesh v q) :
    InClosedTri p0 p1 p2 q := by
  obtain ⟨q', _, k1, k2, -⟩ := hi.place v hv
  rw [at_same hq k1]
  exact k2

/-- When no edges are left, the boundary consists of sides of pieces. -/
theorem LoopInv.boundary (hi : LoopInv ops xy p0 p1 p2 x0 m3 base L st ps) (hE : st.edges = []) {e : VId × VId} (he : e ∈ L) : e ∈ ps.flatMap triEdges := by
  by_contra h
  have := (hi.edges e).2 ⟨.inl he, h⟩
  rw [hE] at this
  cases this

/-- When no edges are left, the pieces pave the triangle. -/
theorem LoopInv.paved (hf : Flat xy p0 p1 p2 X Y Z) (hF : Framed m3 xy p0 p1 p2 base L) (hi : LoopInv ops xy p0 p1 p2 x0 m3 base L st ps)
    (hE : st.edges = []) {t : V3} {l0 l1 l2 : List VId} {ts0 ts1 ts2 : List K} (hL : L = sidePairs t l0 l1 l2) (hn : L.Nodup) (h0 : At m3 t.1 p0)
    (h1 : At m3 t.2.1 p1) (h2 : At m3 t.2.2 p2) (d0 : List.Forall₂ (fun s t => At m3 s (along p0 p1 t)) l0 ts0) (c0 : (0 :: ts0 ++ [1]).IsChain (· < ·))
    (d1 : List.Forall₂ (fun s t => At m3 s (along p1 p2 t)) l1 ts1) (c1 : (0 :: ts1 ++ [1]).IsChain (· < ·))
    (d2 : List.Forall₂ (fun s t => At m3 s (along p2 p0 t)) l2 ts2) (c2 : (0 :: ts2 ++ [1]).IsChain (· < ·)) : Paved st.mesh p0 p1 p2 ps := by
  set pos : VId → K × K := fun v => ((st.mesh.vertices.get v).map fun x => xy x.position).getD (0, 0) with hpos
  have hat : ∀ {v p}, At st.mesh v p → pos v = xy p := by
    rintro v p ⟨-, x, hx, rfl⟩
    simp [hpos, hx]
  have hat3 : ∀ {v p}, At m3 v p → pos v = xy p := fun h => hat (hi.grown.at h)
  have hpc : ∀ s ∈ ps, 0 < planeSide (pos s.1) (pos s.2.1) (pos s.2.2) := by
    intro s hs
    obtain ⟨-, -, a, b, c, ha, hb, hc, h⟩ := hi.pieces s hs
    rw [hat ha, hat hb, hat hc]
    exact h
  have hrev : ∀ e ∈ ps.flatMap triEdges, e ∉ L → (e.2, e.1) ∈ ps.flatMap triEdges := by
    intro e he hel
    by_contra h
    have := (hi.edges (e.2, e.1)).2 ⟨.inr ⟨he, hel⟩, h⟩
    rw [hE] at this
    cases this
  have hout : ∀ e ∈ ps.flatMap triEdges, (e.2, e.1) ∉ L := by
    intro e he hel
    obtain ⟨z, a, b, c, hz, ha, hb, hc, h⟩ := hi.side_of he
    obtain ⟨r1, r2, k1, k2, k3⟩ := hF.outer _ hel
    have := k3 c (hi.closed hz hc)
    rw [at_same (hi.grown.at k1) hb, at_same (hi.grown.at k2) ha, planeSide_rev] at this
    linarith
  have hpiece : ∀ {q}, OnPlane p0 p1 p2 q → ∀ s ∈ ps, (InPiece st.mesh s q ↔ In2 (pos s.1) (pos s.2.1) (pos s.2.2) (xy q)) := by
    intro q hq s hs
    obtain ⟨-, ⟨k1, k2, k3⟩, a, b, c, ha, hb, hc, h⟩ := hi.pieces s hs
    have := hf.inTri (hi.closed k1 ha).onPlane (hi.closed k2 hb).onPlane (hi.closed k3 hc).onPlane hq h
    rw [hat ha, hat hb, hat hc]
    constructor
    · rintro ⟨a', b', c', ha', hb', hc', h'⟩
      rw [at_same ha' ha, at_same hb' hb, at_same hc' hc] at h'
      exact this.1 h'
    · exact fun h' => ⟨a, b, c, ha, hb, hc, this.2 h'⟩
  refine ⟨fun q hq hside => ?_, ?_⟩
  · have hqp := hq.onPlane
    have hne : ∀ e ∈ ps.flatMap triEdges, planeSide (pos e.1) (pos e.2) (xy q) ≠ 0 := by
      intro e he h
      obtain ⟨z, a, b, c, hz, ha, hb, hc, hp⟩ := hi.side_of he
      obtain ⟨k1, k2⟩ := hi.side_ends he
      rw [hat ha, hat hb] at h
      exact hside e (mem_pieceSides.1 he) ⟨a, b, ha, hb, hf.onLine (hi.closed k1 ha).onPlane (hi.closed k2 hb).onPlane (hi.closed hz hc).onPlane hqp hp h⟩
    have hcount := cover2 pos hpc hi.nodup hn (fun e he => hi.boundary hE he) hrev hout hne
    have hsum : (L.map fun e => crosses (xy q) (pos e.1) (pos e.2)).sum = 1 := by
      rw [hL, sidePairs, List.map_append, List.map_append, List.sum_append, List.sum_append,
        side_sum hf (xy q) pos (hat3 h0) (hat3 h1) (d0.imp fun _ _ h => hat3 h) c0,
        side_sum hf (xy q) pos (hat3 h1) (hat3 h2) (d1.imp fun _ _ h => hat3 h) c1,
        side_sum hf (xy q) pos (hat3 h2) (hat3 h0) (d2.imp fun _ _ h => hat3 h) c2]
      have onp0 : OnPlane p0 p1 p2 p0 := ⟨1, 0, 0, by ring, by rw [comb3]; simp⟩
      have onp1 : OnPlane p0 p1 p2 p1 := ⟨0, 1, 0, by ring, by rw [comb3]; simp⟩
      have onp2 : OnPlane p0 p1 p2 p2 := ⟨0, 0, 1, by ring, by rw [comb3]; simp⟩
      have hin : In2 (xy p0) (xy p1) (xy p2) (xy q) := (hf.inTri onp0 onp1 onp2 hqp hf.pos).1 hq
      rw [crosses_tri hf.pos hin.1.ne' hin.2.1.ne' hin.2.2.ne', if_pos hin]
    rw [hsum] at hcount
    have hone : (ps.filter fun s => In2 (pos s.1) (pos s.2.1) (pos s.2.2) (xy q)).length = 1 := by
      rw [← List.countP_eq_length_filter]
      exact_mod_cast hcount
    obtain ⟨s, hs⟩ := List.length_eq_one_iff.1 hone
    have hmem : ∀ x, x ∈ ps ∧ In2 (pos x.1) (pos x.2.1) (pos x.2.2) (xy q) ↔ x = s := by
      intro x
      have : x ∈ ps.filter (fun s => In2 (pos s.1) (pos s.2.1) (pos s.2.2) (xy q)) ↔ x ∈ [s] := by rw [hs]
      simpa using this
    obtain ⟨hs1, hs2⟩ := (hmem s).2 rfl
    exact ⟨s, ⟨hs1, (hpiece hqp s hs1).2 hs2⟩, fun x hx => (hmem x).1 ⟨hx.1, (hpiece hqp x hx.1).1 hx.2⟩⟩
  · rintro q s hs ⟨a, b, c, ha, hb, hc, h⟩
    obtain ⟨-, ⟨k1, k2, k3⟩, -⟩ := hi.pieces s hs
    exact (hi.closed k1 ha).trans (hi.closed k2 hb) (hi.closed k3 hc) h.closed

end Tet
