import Verif.Proofs.StarInsert

/-!
# Filling a cavity whose surface can be seen from the new vertex
-/

namespace Tet
open Spec Vec4
variable {K V T : Type} [Field K] [LinearOrder K] [IsStrictOrderedRing K]
variable {m m' : Mesh (Pt K) V T} {id : VId} {E : List TId} {B : List Walker}

/-- Crossing out of a set of tets at a vertex. -/
theorem star_exit {P : Type} {m : Mesh P V T} {v : VId} {k k' : TId} (h : StarReach m v k k') (hk : k ∈ E) (hk' : k' ∉ E) :
    ∃ w, Outer m E w ∧ m.first w = some v := by
  induction h with
  | refl => exact absurd hk hk'
  | cross hr h1 h2 ih =>
    rename_i w w'
    by_cases hw : w.tet ∈ E
    · exact ⟨w, ⟨hw, w', h2, hk'⟩, h1⟩
    · exact ih hw

/-- If no vertex is swallowed, the cavity can be filled. -/
theorem StarCav.fillable (C : StarCav m id E)
    (hs : ∀ w v, w.tet ∈ E → m.first w = some v → ∃ w', m.first w' = some v ∧ w'.tet ∉ E) : Fillable m E := by
  refine ⟨C.live, fun w w' => C.edges, fun w w' => C.fans, fun w v hw hv => ?_⟩
  obtain ⟨w', h1, h2⟩ := hs w v hw hv
  exact star_exit (C.tiles.star C.cons v w w' hv h1) hw h2

theorem homv_coned (hc : Coned m m' id E B) (hcen : m'.center = m.center) : homv m' = homv m := by
  funext v
  unfold homv
  have : m'.idx v = m.idx v := by
    have := congrArg (Option.map Prod.fst) (hc.payload v)
    simpa only [Mesh.idx, Option.map_map, Function.comp_def] using this
  rw [this, hcen]

/-- The filled mesh fills space. -/
theorem StarCav.result (C : StarCav m id E) (hB : Boundary m E B) (hc : Coned m m' id E B) (hm' : Consistent m')
    (hcen : m'.center = m.center) : Tiles m' := by
  classical
  have hm := C.cons
  have hh := homv_coned hc hcen
  obtain ⟨old, new, h1, h2, h3, h4, h5⟩ := hc.tets
  -- the tets of the result
  have kinds : ∀ q, HasTet m' q → (∃ w, w.tet ∉ E ∧ m.tet4 w = some q) ∨
      ∃ w a b c, Outer m E w ∧ m.tri w = some (a, b, c) ∧ SameTet (a, b, c, id) q := by
    intro q hq
    rcases (h5 _).1 hq with ⟨⟨x, hx⟩, hold⟩ | ⟨⟨a, b, c, u⟩, hp, hs⟩
    · refine .inl ⟨x, fun hE => ?_, hx⟩
      have : m.tet4 (Mesh.walkerFromTetId x.tet) ∈ old.map some := by
        rw [← h1]
        exact List.mem_map.2 ⟨_, hE, rfl⟩
      obtain ⟨o, ho, ho'⟩ := List.mem_map.1 this
      exact hold o ho (tet4_same (w := Mesh.walkerFromTetId x.tet) (w' := x) rfl ho'.symm hx)
    · have hu := h3 _ hp
      simp only at hu
      subst hu
      have hmem : some (a, b, c) ∈ B.map m.tri := by
        rw [h2]
        exact List.mem_map.2 ⟨_, hp, rfl⟩
      obtain ⟨b', hb', ht⟩ := List.mem_map.1 hmem
      exact .inr ⟨b', a, b, c, (hB.exact b').1 ⟨b', hb', .inl rfl⟩, ht, hs⟩
  have pos' : ∀ q, HasTet m' q → 0 < D (homv m) q := by
    intro q hq
    rcases kinds q hq with ⟨w, -, hw⟩ | ⟨w, a, b, c, ho, ht, hs⟩
    · exact C.tiles.positive.pos ⟨w, hw⟩
    · rw [D_same hs]
      exact C.seen w a b c ho ht
  obtain ⟨ids', hids', hg', hs', h4'⟩ := hm'.glued
  obtain ⟨ids, hids, hs, h4q, St, ho⟩ := C.at_
  obtain ⟨j, hj, hjE⟩ := C.rest
  have hjt := (h4q j _).2 ⟨(hids j).2 hj, rfl⟩
  obtain ⟨⟨a, b, c, d⟩, e⟩ : ∃ q, tetAt m j = q := ⟨_, rfl⟩
  rw [e] at hjt
  have fin : {q | Shown ids (tetAt m) q}.Finite := by rw [hs]; exact tets_finite m
  have hDj : 0 < D (homv m) (a, b, c, d) := C.tiles.positive.pos ⟨_, hjt⟩
  obtain ⟨x, hx, hL, hG⟩ := near_gen (h := homv m) (s := homv m id) fin
    (by rw [hs]; exact fun q hq => C.tiles.positive.pos hq) ((tets_finite m').toFinset.toList.map (F (homv m)))
    ((twelve (a, b, c, d)).map (F (homv m))) (by
      intro f hf
      obtain ⟨q, hq, rfl⟩ := List.mem_map.1 hf
      exact F_ne (pos' q (by simpa using hq)).ne') (y := homv m a + homv m b + homv m c + homv m d) (z := 0) (by
      intro g hg
      left
      obtain ⟨q, hq, rfl⟩ := List.mem_map.1 hg
      have hD : D (homv m) q = D (homv m) (a, b, c, d) := D_same (mem_twelve.1 hq)
      obtain ⟨x, y, z, u⟩ := q
      have e1 : F (homv m) (x, y, z, u) (homv m x + homv m y + homv m z + homv m u) = D (homv m) (x, y, z, u) := by
        simp only [F, D, fun3_apply, det_add, self0, self1, self2, zero_add]
      have e2 : homv m a + homv m b + homv m c + homv m d = homv m x + homv m y + homv m z + homv m u := by
        simp only [twelve, List.mem_cons, List.not_mem_nil, or_false, Prod.mk.injEq] at hq
        rcases hq with ⟨rfl, rfl, rfl, rfl⟩ | ⟨rfl, rfl, rfl, rfl⟩ | ⟨rfl, rfl, rfl, rfl⟩ | ⟨rfl, rfl, rfl, rfl⟩ | ⟨rfl, rfl, rfl, rfl⟩ |
          ⟨rfl, rfl, rfl, rfl⟩ | ⟨rfl, rfl, rfl, rfl⟩ | ⟨rfl, rfl, rfl, rfl⟩ | ⟨rfl, rfl, rfl, rfl⟩ | ⟨rfl, rfl, rfl, rfl⟩ |
          ⟨rfl, rfl, rfl, rfl⟩ | ⟨rfl, rfl, rfl, rfl⟩ <;> abel
      rw [e2, e1, hD]
      exact hDj)
  have cx : Cell (homv m) (tetAt m j) x := by
    rw [e]
    exact Cell_iff.2 fun q hq => hG _ (List.mem_map_of_mem (mem_twelve.2 hq))
  have hfree : Free (homv m') (Shown ids' (tetAt m')) x := by
    rw [hh, hs']
    exact fun q hq => hL _ (List.mem_map.2 ⟨q, by simpa using hq, rfl⟩)
  have hpos' : ∀ k ∈ ids', 0 < D (homv m') (tetAt m' k) := by
    rw [hh]
    exact fun k hk => pos' _ ⟨_, (h4' k _).2 ⟨hk, rfl⟩⟩
  -- the tet is still there
  have hold : HasTet m' (a, b, c, d) := by
    refine (h5 _).2 (.inl ⟨⟨_, hjt⟩, fun p hp hsame => hjE ?_⟩)
    have : some p ∈ E.map fun k => m.tet4 (Mesh.walkerFromTetId k) := by
      rw [h1]
      exact List.mem_map_of_mem hp
    obtain ⟨k, hk, hk'⟩ := List.mem_map.1 this
    obtain ⟨w, hw1, hw2⟩ := tet4_write hk' hsame
    have hw1 : w.tet = k := hw1
    have : w.tet = j := by
      rcases hm.triUnique _ _ _ _ (tet4_parts hjt).2.2.2 (tet4_parts hw2).2.2.2 (by left; rfl) with r | r | r <;> rw [r] <;> rfl
    rw [← this, hw1]
    exact hk
  rw [← hs'] at hold
  obtain ⟨k', hk', hsame'⟩ := hold
  have h1c : (holders (homv m') ids' (tetAt m') x).card = 1 := by
    rw [Finset.card_eq_one]
    refine ⟨k', ?_⟩
    ext i
    simp only [holders, Finset.mem_filter, Finset.mem_singleton]
    rw [hh]
    constructor
    · rintro ⟨hi, ci⟩
      rcases kinds _ ⟨_, (h4' i _).2 ⟨hi, rfl⟩⟩ with ⟨w, hwE, hw⟩ | ⟨w, a', b', c', hw, ht, hsi⟩
      · have hwid : w.tet ∈ ids := by
          obtain ⟨t, ht, -⟩ := Mesh.tet4_iff.1 hw
          exact (hids _).2 (by rw [ht]; rfl)
        have hws := tet4_same (w := Mesh.walkerFromTetId w.tet) (w' := w) rfl ((h4q _ _).2 ⟨hwid, rfl⟩) hw
        have : w.tet = j := by
          have hc1 := C.tiles.one hm St.glued hs h4q x hx.1
          obtain ⟨u, hu⟩ := Finset.card_eq_one.1 hc1
          have m1 : w.tet ∈ holders (homv m) ids (tetAt m) x := Finset.mem_filter.2 ⟨hwid, Cell_iff.2 fun q hq =>
            Cell_iff.1 ci q (SameTet.trans' (SameTet.symm' hws) hq)⟩
          have m2 : j ∈ holders (homv m) ids (tetAt m) x := Finset.mem_filter.2 ⟨(hids j).2 hj, cx⟩
          rw [hu, Finset.mem_singleton] at m1 m2
          rw [m1, m2]
        rw [this, e] at hws
        exact hg'.uniq i hi k' hk' a b c d d (SameTet.symm' hws) hsame'
      · exfalso
        have c2 : Cell (homv m) (a', b', c', id) x := Cell_iff.2 fun q hq =>
          Cell_iff.1 ci q (SameTet.trans' (SameTet.symm' hsi) hq)
        obtain ⟨r, hr, i1⟩ := cell_cone (C.seen w a' b' c' hw ht) c2
        exact hjE (St.within hx ((ho a' b' c').2 ⟨w, hw, ht⟩) hr i1 ((hids j).2 hj) cx)
    · rintro rfl
      refine ⟨hk', Cell_iff.2 fun q hq => ?_⟩
      have := Cell_iff.1 cx q
      rw [e] at this
      exact this (SameTet.trans' (SameTet.symm' hsame') hq)
  rw [tiles_iff hm'.toT.placed, ← hs']
  exact hg'.fan hpos' hfree h1c last4

end Tet
