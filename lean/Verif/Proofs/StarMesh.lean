import Verif.Proofs.StarCavity
import Verif.Proofs.HullCavity

/-!
# Cavities whose surface can be seen from the new vertex can be filled
-/

namespace Tet
open Spec Vec4
variable {K V T : Type} [Field K] [LinearOrder K] [IsStrictOrderedRing K]
variable {m : Mesh (Pt K) V T} {id : VId} {E : List TId}

/-- In a mesh that fills space, vectors in no plane of a triangle are in one tet. -/
theorem Spec.Tiles.one (ht : Tiles m) (hm : Consistent m) {ids : Finset Nat} (hg : Tet.Glued ids (tetAt m))
    (hs : Shown ids (tetAt m) = HasTet m) (h4 : ∀ k, ∀ q, m.tet4 (Mesh.walkerFromTetId k) = some q ↔ k ∈ ids ∧ tetAt m k = q)
    (x : Vec4 K) (hx : Free (homv m) (Shown ids (tetAt m)) x) : (holders (homv m) ids (tetAt m) x).card = 1 := by
  have pos : ∀ k ∈ ids, 0 < D (homv m) (tetAt m k) := fun k hk => ht.positive.pos ⟨_, (h4 k _).2 ⟨hk, rfl⟩⟩
  have fin : {q | Shown ids (tetAt m) q}.Finite := by rw [hs]; exact tets_finite m
  obtain ⟨y, hy, hG⟩ := near_free (G := [last4]) (y := hom ⟨0, 0, 0⟩) (z := 0) (h := homv m) fin
    (by rw [hs]; exact fun q hq => ht.positive.pos hq) (by
      intro g hg'
      left
      simp only [List.mem_cons, List.not_mem_nil, or_false] at hg'
      subst hg'
      simp [last4, hom])
  have hy3 : 0 < y 3 := hG last4 (by simp)
  obtain ⟨p, hpy⟩ : ∃ p : Pt K, y = y 3 • hom p := by
    refine ⟨⟨y 0 / y 3, y 1 / y 3, y 2 / y 3⟩, ?_⟩
    funext i
    fin_cases i <;> simp [hom, mul_div_cancel₀, hy3.ne']
  have hF : ∀ q, F (homv m) q y = y 3 * F (homv m) q (hom p) := by
    intro q
    conv_lhs => rw [hpy]
    rw [map_smul, smul_eq_mul]
  have hfree : Free (homv m) (Shown ids (tetAt m)) (hom p) := fun q hq h0 => hy q hq (by rw [hF, h0, mul_zero])
  rw [count_const hg pos hx hfree, ← layers_eq hm h4]
  exact ht.layer hm ((hm.toT.placed.offPlanes p).2 (by rw [← hs]; exact hfree))

/-- Tets of a mesh that fills space that do not contain everything and whose outer triangles can be seen from a vertex. -/
structure StarCav (m : Mesh (Pt K) V T) (id : VId) (E : List TId) : Prop where
  cons : Consistent m
  tiles : Tiles m
  live : ∀ k ∈ E, (m.tets.get k).isSome
  seen : ∀ w a b c, Outer m E w → m.tri w = some (a, b, c) → 0 < D (homv m) (a, b, c, id)
  rest : ∃ k, (m.tets.get k).isSome ∧ k ∉ E

theorem StarCav.at_ (C : StarCav m id E) : ∃ ids : Finset Nat, (∀ k, k ∈ ids ↔ (m.tets.get k).isSome) ∧
    Shown ids (tetAt m) = HasTet m ∧ (∀ k, ∀ q, m.tet4 (Mesh.walkerFromTetId k) = some q ↔ k ∈ ids ∧ tetAt m k = q) ∧
    StarAt (homv m) ids (tetAt m) (· ∈ E) (homv m id) ∧
    ∀ a b c, OutTri ids (tetAt m) (· ∈ E) a b c ↔ ∃ w, Outer m E w ∧ m.tri w = some (a, b, c) := by
  have hm := C.cons
  obtain ⟨ids, hids, hg, hs, h4⟩ := hm.glued
  have hof : ∀ {k : Nat} {q : V4}, k ∈ ids → SameTet (tetAt m k) q → ∃ w, w.tet = k ∧ m.tet4 w = some q := by
    intro k q hk hs
    exact tet4_write ((h4 _ _).2 ⟨hk, rfl⟩) hs
  have hat : ∀ {w : Walker} {q : V4}, m.tet4 w = some q → w.tet ∈ ids ∧ SameTet (tetAt m w.tet) q := by
    intro w q h
    obtain ⟨t, ht, -⟩ := Mesh.tet4_iff.1 h
    have hk : w.tet ∈ ids := (hids _).2 (by rw [ht]; rfl)
    exact ⟨hk, tet4_same (w := Mesh.walkerFromTetId w.tet) (w' := w) rfl ((h4 _ _).2 ⟨hk, rfl⟩) h⟩
  have hout : ∀ a b c, OutTri ids (tetAt m) (· ∈ E) a b c ↔ ∃ w, Outer m E w ∧ m.tri w = some (a, b, c) := by
    intro a b c
    constructor
    · rintro ⟨k, hk, hE, d, hs, k', hk', hE', z, hz⟩
      obtain ⟨w, rfl, hw⟩ := hof hk hs
      obtain ⟨w', z', ha, -, hz'⟩ := toAcross hm hw
      obtain ⟨w2, rfl, hw2⟩ := hof hk' hz
      refine ⟨w, ⟨hE, w', ha, ?_⟩, (tet4_parts hw).2.2.2⟩
      have : w2.tet = w'.tet := by
        rcases hm.triUnique _ _ _ _ (tet4_parts hz').2.2.2 (tet4_parts hw2).2.2.2 (by left; rfl) with r | r | r <;> rw [r] <;> rfl
      rwa [← this]
    · rintro ⟨w, ⟨hE, w2, ha2, hE'⟩, hw⟩
      obtain ⟨d, hw⟩ := tri_tet4 hw
      obtain ⟨w', z', ha, -, hz'⟩ := toAcross hm hw
      rw [ha2] at ha
      cases ha
      exact ⟨w.tet, (hat hw).1, hE, d, (hat hw).2, w2.tet, (hat hz').1, hE', z', (hat hz').2⟩
  refine ⟨ids, hids, hs, h4, ⟨hg, fun k hk => C.tiles.positive.pos ⟨_, (h4 k _).2 ⟨hk, rfl⟩⟩, C.tiles.one hm hg hs h4, ?_, ?_⟩, hout⟩
  · intro k hk hE k' hk' hE' a b c d z h1 h2
    obtain ⟨w, k1, k2⟩ := (hout a b c).1 ⟨k, hk, hE, d, h1, k', hk', hE', z, h2⟩
    exact C.seen w a b c k1 k2
  · obtain ⟨k, k1, k2⟩ := C.rest
    exact ⟨k, (hids k).2 k1, k2⟩

/-- Inside the cone of a triangle: behind the triangle, as seen from the apex. -/
theorem cell_cone {h : VId → Vec4 K} {a b c s : VId} (hD : 0 < D h (a, b, c, s)) {x : Vec4 K} (hx : Cell h (a, b, c, s) x) :
    ∃ r : K, 0 < r ∧ InTri (h a) (h b) (h c) (x - r • h s) := by
  have hD' : det (h a) (h b) (h c) (h s) ≠ 0 := hD.ne'
  obtain ⟨h1, h2, h3, h4⟩ := hx
  obtain ⟨ka, kb, kc, kd, e⟩ := basis hD' x
  rw [e] at h1 h2 h3 h4
  simp only [fun3_apply, det_add, det_smul, self0, self1, self2, mul_zero, add_zero, zero_add] at h1 h2 h3 h4
  rw [show det (h a) (h s) (h b) (h c) = det (h a) (h b) (h c) (h s) by simp only [det, det3]; ring] at h2
  rw [show det (h a) (h c) (h s) (h b) = det (h a) (h b) (h c) (h s) by simp only [det, det3]; ring] at h3
  rw [show det (h b) (h s) (h c) (h a) = det (h a) (h b) (h c) (h s) by simp only [det, det3]; ring] at h4
  have hD : 0 < det (h a) (h b) (h c) (h s) := hD
  refine ⟨kd, (mul_pos_iff_of_pos_right hD).1 h1, ka, kb, kc, (mul_pos_iff_of_pos_right hD).1 h4,
    (mul_pos_iff_of_pos_right hD).1 h3, (mul_pos_iff_of_pos_right hD).1 h2, ?_⟩
  rw [e]
  module

/-- Vectors in general position close to any vector. -/
theorem near_gen {h : VId → Vec4 K} {S : V4 → Prop} {s : Vec4 K} (fin : {q | S q}.Finite) (pos : ∀ q, S q → 0 < D h q)
    (L G : List (Vec4 K →ₗ[K] K)) (hL : ∀ f ∈ L, f ≠ 0) {y z : Vec4 K} (hG : ∀ g ∈ G, 0 < g y ∨ g y = 0 ∧ 0 < g z) :
    ∃ x, Gen h S s x ∧ (∀ f ∈ L, f x ≠ 0) ∧ ∀ g ∈ G, 0 < g x := by
  classical
  obtain ⟨x, h1, h2⟩ := near_small (fin.toFinset.toList.map (F h) ++
    ((fin.toFinset.toList.map fun q => fun3 (h q.1) (h q.2.1) s).filter fun f => f ≠ 0) ++ L) G y z (by
    intro f hf
    rcases List.mem_append.1 hf with hf | hf
    · rcases List.mem_append.1 hf with hf | hf
      · obtain ⟨q, hq, rfl⟩ := List.mem_map.1 hf
        exact F_ne (pos q (by simpa using hq)).ne'
      · simpa using (List.mem_filter.1 hf).2
    · exact hL f hf) hG
  refine ⟨x, ⟨fun q hq => h1 (F h q) ?_, fun a b c d hS h0 => h1 (fun3 (h a) (h b) s) ?_⟩, fun f hf => h1 _ (List.mem_append_right _ hf), h2⟩
  · exact List.mem_append_left _ (List.mem_append_left _ (List.mem_map.2 ⟨q, by simpa using hq, rfl⟩))
  · refine List.mem_append_left _ (List.mem_append_right _ (List.mem_filter.2 ⟨List.mem_map.2 ⟨(a, b, c, d), ?_, rfl⟩, by simpa using h0⟩))
    simpa using hS

omit [LinearOrder K] [IsStrictOrderedRing K] in
theorem D_ne_eq {h : VId → Vec4 K} {a b c d : VId} (hD : D h (a, b, c, d) ≠ 0) : a ≠ b ∧ b ≠ c ∧ a ≠ c ∧ a ≠ d ∧ b ≠ d ∧ c ≠ d := by
  have hD : det (h a) (h b) (h c) (h d) ≠ 0 := hD
  refine ⟨?_, ?_, ?_, ?_, ?_, ?_⟩ <;> rintro rfl <;> refine hD ?_ <;> simp only [det, det3] <;> ring

/-- The cones do not overlap. -/
theorem StarCav.apart (C : StarCav m id E) {w w' : Walker} (hw : Outer m E w) (hw' : Outer m E w') {a b c a' b' c' : VId}
    (ht : m.tri w = some (a, b, c)) (ht' : m.tri w' = some (a', b', c')) {y z : Vec4 K}
    (hy : ∀ q ∈ twelve (a, b, c, id) ++ twelve (a', b', c', id), 0 < F (homv m) q y ∨ F (homv m) q y = 0 ∧ 0 < F (homv m) q z) :
    (a' = a ∧ b' = b ∧ c' = c) ∨ (a' = b ∧ b' = c ∧ c' = a) ∨ (a' = c ∧ b' = a ∧ c' = b) := by
  obtain ⟨ids, hids, hs, h4, St, ho⟩ := C.at_
  have fin : {q | Shown ids (tetAt m) q}.Finite := by rw [hs]; exact tets_finite m
  obtain ⟨x, hx, -, hG⟩ := near_gen (h := homv m) (s := homv m id) fin (by rw [hs]; exact fun q hq => C.tiles.positive.pos hq) []
    ((twelve (a, b, c, id) ++ twelve (a', b', c', id)).map (F (homv m))) (by simp) (y := y) (z := z) (by
      intro g hg
      obtain ⟨q, hq, rfl⟩ := List.mem_map.1 hg
      exact hy q hq)
  have c1 : Cell (homv m) (a, b, c, id) x := Cell_iff.2 fun q hq =>
    hG _ (List.mem_map_of_mem (List.mem_append_left _ (mem_twelve.2 hq)))
  have c2 : Cell (homv m) (a', b', c', id) x := Cell_iff.2 fun q hq =>
    hG _ (List.mem_map_of_mem (List.mem_append_right _ (mem_twelve.2 hq)))
  obtain ⟨r, -, i1⟩ := cell_cone (C.seen w a b c hw ht) c1
  obtain ⟨r', -, i2⟩ := cell_cone (C.seen w' a' b' c' hw' ht') c2
  exact St.apart hx ((ho a b c).2 ⟨w, hw, ht⟩) ((ho a' b' c').2 ⟨w', hw', ht'⟩) i1 i2

omit [IsStrictOrderedRing K] in
theorem cyc3 {h : VId → Vec4 K} (a b c : VId) (x : Vec4 K) : det (h b) (h c) (h a) x = det (h a) (h b) (h c) x := by
  simp only [det, det3]; ring

theorem StarCav.edges (C : StarCav m id E) {w w' : Walker} (hw : Outer m E w) (hw' : Outer m E w') (he : m.edge w = m.edge w') :
    w = w' := by
  have hm := C.cons
  obtain ⟨t, ht⟩ := Option.isSome_iff_exists.1 (C.live _ hw.1)
  obtain ⟨a, b, c, d, hq⟩ := live_iff.1 (show Live m w by rw [Live, ht]; rfl)
  have t1 := (tet4_parts hq).2.2.2
  have e1 := (tet4_parts hq).2.2.1
  obtain ⟨c', t2⟩ := edge_tri (he ▸ e1)
  obtain ⟨n1, n2, n3⟩ := tri_ne hm t1
  have p1 := C.seen w _ _ _ hw t1
  have p2 := C.seen w' _ _ _ hw' t2
  have hcc : c' = c := by
    have key : ∀ c', 0 < D (homv m) (a, b, c', id) → ∀ q ∈ twelve (a, b, c', id),
        0 < F (homv m) q (homv m a + homv m b + homv m id) ∨
        F (homv m) q (homv m a + homv m b + homv m id) = 0 ∧ 0 < F (homv m) q (homv m c) := by
      intro c' p2 q hq
      have q1 : 0 < det (homv m a) (homv m b) (homv m c) (homv m id) := p1
      have q2 : 0 < det (homv m a) (homv m b) (homv m c') (homv m id) := p2
      generalize homv m = h at *
      simp only [twelve, List.mem_cons, List.not_mem_nil, or_false] at hq
      have r1 : det (h a) (h id) (h b) (h c) = det (h a) (h b) (h c) (h id) := by simp only [det, det3]; ring
      rcases hq with rfl | rfl | rfl | rfl | rfl | rfl | rfl | rfl | rfl | rfl | rfl | rfl
      all_goals
        first
          | (refine .inl ?_
             simp only [F, fun3_apply, det_add, self0, self1, self2, add_zero, zero_add]
             exact q2)
          | (refine .inl ?_
             simp only [F, fun3_apply, det_add, self0, self1, self2, add_zero, zero_add]
             refine lt_of_lt_of_eq q2 ?_
             simp only [det, det3]
             ring1)
          | (refine .inr ⟨?_, ?_⟩
             · simp only [F, fun3_apply, det_add, self0, self1, self2, add_zero, zero_add]
             · simp only [F, fun3_apply]
               refine lt_of_lt_of_eq q1 ?_
               simp only [det, det3]
               ring1)
    rcases C.apart hw hw' t1 t2 (y := homv m a + homv m b + homv m id) (z := homv m c) (by
      intro q hq
      rcases List.mem_append.1 hq with hq | hq
      · exact key c p1 q hq
      · exact key c' p2 q hq) with h | h | h
    · exact h.2.2
    · exact absurd h.1 n1
    · exact absurd h.1 n3
  subst hcc
  rcases hm.triUnique _ _ _ _ t1 t2 (by left; rfl) with r | r | r
  · exact r.symm
  · subst r
    have := (tet4_parts (tet4_turns hq).2.2.2.2.1).2.2.1
    rw [tri_edge t2] at this
    cases this
    exact absurd rfl n1
  · subst r
    have := (tet4_parts (tet4_turns hq).2.2.2.2.2).2.2.1
    rw [tri_edge t2] at this
    cases this
    exact absurd rfl n3

theorem tet_vals {h : VId → Vec4 K} {p q : V4} (hD : 0 < D h p) (hs : SameTet p q) :
    (∀ u, HasV p u → 0 ≤ F h q (h u)) ∧ 0 < F h q (h q.2.2.2) ∧ HasV p q.2.2.2 := by
  have hDq : 0 < F h q (h q.2.2.2) := by
    have : 0 < D h q := by rwa [D_same hs]
    exact this
  refine ⟨?_, hDq, (sameTet_hasV hs).1 (by simp [HasV])⟩
  intro u hu
  obtain ⟨x, y, z, w⟩ := q
  have := (sameTet_hasV hs (v := u)).2 hu
  simp only [HasV, List.mem_cons, List.not_mem_nil, or_false] at this
  rcases this with rfl | rfl | rfl | rfl
  · exact (self0 (h u) (h y) (h z)).ge
  · exact (self1 (h x) (h u) (h z)).ge
  · exact (self2 (h x) (h y) (h u)).ge
  · exact hDq.le

/-- The next outer triangle around the first vertex. -/
theorem StarCav.succ (C : StarCav m id E) {w x : Walker} {a b c : VId} (hw : Outer m E w) (hf : Spec.Fan m E w x)
    (ht : m.tri x = some (a, b, c)) : ∃ y c2, Spec.Fan m E w y ∧ Outer m E y ∧ m.tri y = some (a, c, c2) := by
  have hx := fan_outer hw hf
  obtain ⟨y, h1, h2⟩ := outer_mate C.cons.toT (fun k hk => C.live k hk) (hx.congr (w' := x.pfe) (fid_pfe x)) (tri_edge (tri_pfe ht))
  obtain ⟨c2, h3⟩ := edge_tri h2
  exact ⟨y, c2, hf.step ht h1 h2, h1, h3⟩

/-- The previous outer triangle around the first vertex. -/
theorem StarCav.pred (C : StarCav m id E) {w x : Walker} {a b c : VId} (hw : Outer m E w) (hf : Spec.Fan m E w x)
    (ht : m.tri x = some (a, b, c)) : ∃ y b0, Spec.Fan m E w y ∧ Outer m E y ∧ m.tri y = some (a, b0, b) := by
  classical
  let F := {y : Walker // Spec.Fan m E w y}
  have hfin : Finite F := Set.Finite.to_subtype ((live_finite m).subset fun y hy => C.live _ (fan_outer hw hy).1)
  have hxa : m.first w = some a := by
    obtain ⟨t, h0⟩ := Option.isSome_iff_exists.1 (C.live _ hw.1)
    obtain ⟨a', b', c', d', hq⟩ := live_iff.1 (show Live m w by rw [Live, h0]; rfl)
    have := fan_first (tet4_parts hq).1 hf
    obtain ⟨d, h⟩ := tri_tet4 ht
    rw [(tet4_parts h).1] at this
    cases this
    exact (tet4_parts hq).1
  have htri : ∀ y : F, ∃ b c, m.tri y.1 = some (a, b, c) := by
    intro y
    obtain ⟨t, h0⟩ := Option.isSome_iff_exists.1 (C.live _ (fan_outer hw y.2).1)
    obtain ⟨a', b', c', d', hq⟩ := live_iff.1 (show Live m y.1 by rw [Live, h0]; rfl)
    have := fan_first hxa y.2
    rw [(tet4_parts hq).1] at this
    cases this
    exact ⟨_, _, (tet4_parts hq).2.2.2⟩
  have hs : ∀ y : F, ∃ z : F, ∃ b c c2, m.tri y.1 = some (a, b, c) ∧ m.tri z.1 = some (a, c, c2) := by
    intro y
    obtain ⟨b, c, h⟩ := htri y
    obtain ⟨z, c2, h1, h2, h3⟩ := C.succ hw y.2 h
    exact ⟨⟨z, h1⟩, b, c, c2, h, h3⟩
  choose f hfs using hs
  have hinj : Function.Injective f := by
    intro y z he
    obtain ⟨b1, c1, e1, h1, h2⟩ := hfs y
    obtain ⟨b2, c2, e2, h3, h4⟩ := hfs z
    rw [he, h4] at h2
    cases h2
    have := C.edges ((fan_outer hw y.2).congr (w' := y.1.pfe) (fid_pfe y.1))
      ((fan_outer hw z.2).congr (w' := z.1.pfe) (fid_pfe z.1)) (by
      rw [tri_edge (tri_pfe h1), tri_edge (tri_pfe h3)])
    have h5 := congrArg Walker.nfe this
    have hp : ∀ w : Walker, w.pfe.nfe = w := fun w => by
      rcases w with ⟨k, e⟩
      simp only [Walker.pfe, Walker.nfe, Walker.mk.injEq, true_and]
      revert e
      decide
    rw [hp, hp] at h5
    exact Subtype.ext h5
  obtain ⟨y, hy⟩ := Finite.injective_iff_surjective.1 hinj ⟨x, hf⟩
  obtain ⟨b1, c1, e1, h1, h2⟩ := hfs y
  rw [hy, ht] at h2
  cases h2
  exact ⟨y.1, b1, y.2, fan_outer hw y.2, h1⟩

/-- The outer triangles at a vertex form one fan. -/
theorem StarCav.fans (C : StarCav m id E) {w w' : Walker} (hw : Outer m E w) (hw' : Outer m E w') (hff : m.first w = m.first w') :
    Spec.Fan m E w w' := by
  classical
  have hm := C.cons
  have htri : ∀ {y}, Outer m E y → ∃ a b c, m.tri y = some (a, b, c) ∧ m.first y = some a := by
    intro y hy
    obtain ⟨t, h0⟩ := Option.isSome_iff_exists.1 (C.live _ hy.1)
    obtain ⟨a', b', c', d', hq⟩ := live_iff.1 (show Live m y by rw [Live, h0]; rfl)
    exact ⟨_, _, _, (tet4_parts hq).2.2.2, (tet4_parts hq).1⟩
  obtain ⟨v, b, c, tw, fw⟩ := htri hw
  obtain ⟨v', b', c', tw', fw'⟩ := htri hw'
  rw [fw, fw'] at hff
  cases hff
  -- the outer triangles at the vertex
  have hfin : {y | Outer m E y ∧ m.first y = some v}.Finite := (live_finite m).subset fun y hy => C.live _ hy.1.1
  let Y := hfin.toFinset.toList
  have hY : ∀ y, y ∈ Y ↔ Outer m E y ∧ m.first y = some v := by intro y; simp [Y]
  let h := homv m
  let tr : Walker → V4 := fun y => match m.tri y with
    | some t => (t.1, t.2.1, t.2.2, id)
    | none => (0, 0, 0, 0)
  let Q : Nat → V4 := fun i => match Y[i]? with
    | some y => tr y
    | none => (0, 0, 0, 0)
  let ids := Finset.range Y.length
  have hQ : ∀ i ∈ ids, ∃ y b c, Y[i]? = some y ∧ Outer m E y ∧ m.tri y = some (v, b, c) ∧ Q i = (v, b, c, id) := by
    intro i hi
    have hi : i < Y.length := Finset.mem_range.1 hi
    obtain ⟨h1, h2⟩ := (hY _).1 (List.getElem_mem hi)
    obtain ⟨a, b, c, h3, h4⟩ := htri h1
    rw [h2] at h4
    cases h4
    have e : Y[i]? = some Y[i] := List.getElem?_eq_getElem hi
    refine ⟨_, b, c, e, h1, h3, ?_⟩
    simp only [Q, e, tr, h3]
  have hQ' : ∀ y, Outer m E y → ∀ b c, m.tri y = some (v, b, c) → ∃ i ∈ ids, Y[i]? = some y ∧ Q i = (v, b, c, id) := by
    intro y h1 b c h2
    obtain ⟨d, h3⟩ := tri_tet4 h2
    obtain ⟨i, hi, he⟩ := List.getElem_of_mem ((hY y).2 ⟨h1, (tet4_parts h3).1⟩)
    have e : Y[i]? = some y := by rw [List.getElem?_eq_getElem hi, he]
    refine ⟨i, Finset.mem_range.2 hi, e, ?_⟩
    simp only [Q, e, tr, h2]
  have pos : ∀ k ∈ ids, 0 < D h (Q k) := by
    intro k hk
    obtain ⟨y, b, c, -, h1, h2, h3⟩ := hQ k hk
    rw [h3]
    exact C.seen y v b c h1 h2
  let base := h v + h id
  let L := (faceList h ids Q).filter fun f => decide (f base ≠ 0)
  let sg : (Vec4 K →ₗ[K] K) → Vec4 K →ₗ[K] K := fun f => if 0 < f base then f else -f
  have near_v : ∀ k ∈ ids, ∀ g ∈ (twelve (Q k)).map (F h) ++ L.map sg,
      0 < g base ∨ g base = 0 ∧ 0 < g (h (Q k).2.1 + h (Q k).2.2.1) := by
    intro k hk g hg
    rcases List.mem_append.1 hg with hg | hg
    · obtain ⟨q, hq, rfl⟩ := List.mem_map.1 hg
      have hp := pos k hk
      obtain ⟨y, b, c, -, h1, h2, h3⟩ := hQ k hk
      rw [h3] at hq hp ⊢
      obtain ⟨i1, i2, i3⟩ := tet_vals hp (mem_twelve.1 hq)
      have n1 := i1 v (by simp [HasV])
      have n2 := i1 b (by simp [HasV])
      have n3 := i1 c (by simp [HasV])
      have n4 := i1 id (by simp [HasV])
      simp only [base, map_add]
      simp only [HasV, List.mem_cons, List.not_mem_nil, or_false] at i3
      rcases i3 with i3 | i3 | i3 | i3 <;> rw [i3] at i2
      · exact .inl (by linarith)
      · rcases (add_nonneg n1 n4).lt_or_eq with h | h
        · exact .inl h
        · exact .inr ⟨h.symm, by linarith⟩
      · rcases (add_nonneg n1 n4).lt_or_eq with h | h
        · exact .inl h
        · exact .inr ⟨h.symm, by linarith⟩
      · exact .inl (by linarith)
    · obtain ⟨f, hf, rfl⟩ := List.mem_map.1 hg
      have hf : f base ≠ 0 := by simpa [L] using (List.mem_filter.1 hf).2
      left
      simp only [sg]
      split_ifs with h2
      · exact h2
      · rw [LinearMap.neg_apply, neg_pos]
        exact lt_of_le_of_ne (not_lt.1 h2) hf
  have nz : ∀ f ∈ faceList h ids Q, f ≠ 0 := by
    intro f hf
    obtain ⟨q, ⟨k, hk, hq⟩, rfl⟩ := mem_faceList.1 hf
    exact F_ne (by rw [D_same hq]; exact (pos k hk).ne')
  obtain ⟨i0, hi0, y0, e0⟩ := hQ' w hw b c tw
  obtain ⟨i1, hi1, y1, e1⟩ := hQ' w' hw' b' c' tw'
  obtain ⟨x, hx, hxG⟩ := near_small (faceList h ids Q) _ _ _ nz (near_v i0 hi0)
  have hxf : Free h (Shown ids Q) x := fun q hq => hx _ (mem_faceList.2 ⟨q, hq, rfl⟩)
  have hall : ∀ q, q ∈ full ((ids.sort (· ≤ ·)).map Q) ↔ Shown ids Q q := by
    intro q
    simp only [List.mem_map, mem_full, Shown, exists_exists_and_eq_and, Finset.mem_sort]
  obtain ⟨y, hy, hyG⟩ := near_small (faceList h ids Q ++ (full ((ids.sort (· ≤ ·)).map Q)).map fun q => fun3 (h q.1) (h q.2.1) x)
    _ _ _ (by
      intro f hf
      rcases List.mem_append.1 hf with hf | hf
      · exact nz f hf
      · intro h0
        obtain ⟨⟨a, b, c, d⟩, hq, rfl⟩ := List.mem_map.1 hf
        have h1 := hxf _ ((hall _).1 hq)
        have h3 : det (h a) (h b) x (h c) = 0 := LinearMap.congr_fun h0 (h c)
        refine h1 ?_
        change det (h a) (h b) (h c) x = 0
        rw [swap2, h3, neg_zero]) (near_v i1 hi1)
  have hyf : Free h (Shown ids Q) y := fun q hq => hy _ (List.mem_append_left _ (mem_faceList.2 ⟨q, hq, rfl⟩))
  have hclear : Clear h (Shown ids Q) x y := fun a b c d hS =>
    hy _ (List.mem_append_right _ (List.mem_map.2 ⟨(a, b, c, d), (hall _).2 hS, rfl⟩))
  have cx : Cell h (Q i0) x := Cell_iff.2 fun q hq => hxG _ (List.mem_append_left _ (List.mem_map_of_mem (mem_twelve.2 hq)))
  have cy : Cell h (Q i1) y := Cell_iff.2 fun q hq => hyG _ (List.mem_append_left _ (List.mem_map_of_mem (mem_twelve.2 hq)))
  let N : Vec4 K → Prop := fun z => ∀ f ∈ L, 0 < sg f z
  have hN : ∀ t : K, 0 ≤ t → t ≤ 1 → N (x + t • (y - x)) := by
    intro t t0 t1 f hf
    have k1 := hxG _ (List.mem_append_right _ (List.mem_map_of_mem hf))
    have k2 := hyG _ (List.mem_append_right _ (List.mem_map_of_mem hf))
    rw [map_add, map_smul, map_sub, smul_eq_mul]
    have : sg f x + t * (sg f y - sg f x) = (1 - t) * sg f x + t * sg f y := by ring
    rw [this]
    rcases t0.lt_or_eq with t0 | rfl
    · have := mul_nonneg (by linarith : 0 ≤ 1 - t) k1.le
      have := mul_pos t0 k2
      linarith
    · linarith
  let I : Nat → Prop := fun i => ∃ y, Y[i]? = some y ∧ Spec.Fan m E w y
  obtain ⟨k2, hk2, c2, hr⟩ := walk_to (h := h) (ids := ids) (Q := Q) pos hyf (N := N) (I := I) (R := fun i j => I i → I j) (by
    intro k hk hI a1 b1 c1 d1 p hs hin hNp _
    have hS : Shown ids Q (a1, b1, c1, d1) := ⟨k, hk, hs⟩
    obtain ⟨y, b, c, h1, h2, h3, h4⟩ := hQ k hk
    obtain ⟨y', h5, h6⟩ := hI
    rw [h1] at h5
    cases h5
    have hp := pos k hk
    rw [h4] at hs hp
    -- the triangle has both the vertex and the new vertex
    have hd : d1 ≠ v ∧ d1 ≠ id := by
      obtain ⟨i1, i2, i3⟩ := tet_vals hp hs
      have n1 := i1 v (by simp [HasV])
      have n4 := i1 id (by simp [HasV])
      have key : ¬ 0 < F h (a1, b1, c1, d1) base := by
        intro hb
        have := hNp (F h (a1, b1, c1, d1)) (List.mem_filter.2 ⟨mem_faceList.2 ⟨_, hS, rfl⟩, by simpa using hb.ne'⟩)
        simp only [sg, if_pos hb, hin.plane] at this
        exact lt_irrefl _ this
      simp only [base, map_add] at key
      constructor
      · rintro rfl
        exact key (by linarith)
      · rintro rfl
        exact key (by linarith)
    obtain ⟨y2, c2, j1, j2, j3⟩ := C.succ hw h6 h3
    obtain ⟨k2, l1, l2, l3⟩ := hQ' y2 j2 _ _ j3
    obtain ⟨y3, b3, j4, j5, j6⟩ := C.pred hw h6 h3
    obtain ⟨k3, l4, l5, l6⟩ := hQ' y3 j5 _ _ j6
    have f2 : I k2 := ⟨y2, l2, j1⟩
    have f3 : I k3 := ⟨y3, l5, j4⟩
    -- which of the two
    rw [← mem_twelve] at hs
    simp only [twelve, List.mem_cons, List.not_mem_nil, or_false, Prod.mk.injEq] at hs
    have u2 (q : V4) (hq : q ∈ twelve (v, c, c2, id)) : SameTet (Q k2) q := by rw [l3]; exact mem_twelve.1 hq
    have u3 (q : V4) (hq : q ∈ twelve (v, b3, b, id)) : SameTet (Q k3) q := by rw [l6]; exact mem_twelve.1 hq
    clear hin hNp hS hN hclear hyf hy hyG cy cx hxG hx hxf near_v nz
    rcases hs with ⟨rfl, rfl, rfl, rfl⟩ | ⟨rfl, rfl, rfl, rfl⟩ | ⟨rfl, rfl, rfl, rfl⟩ | ⟨rfl, rfl, rfl, rfl⟩ | ⟨rfl, rfl, rfl, rfl⟩ |
      ⟨rfl, rfl, rfl, rfl⟩ | ⟨rfl, rfl, rfl, rfl⟩ | ⟨rfl, rfl, rfl, rfl⟩ | ⟨rfl, rfl, rfl, rfl⟩ | ⟨rfl, rfl, rfl, rfl⟩ |
      ⟨rfl, rfl, rfl, rfl⟩ | ⟨rfl, rfl, rfl, rfl⟩
    all_goals first
      | exact absurd rfl hd.1
      | exact absurd rfl hd.2
      | (refine ⟨k2, l1, c2, u2 _ ?_, f2, fun _ => f2⟩
         simp [twelve]
         done)
      | (refine ⟨k3, l4, b3, u3 _ ?_, f3, fun _ => f3⟩
         simp [twelve]
         done)) _ x hxf hclear.avoids hN rfl i0 hi0 ⟨w, y0, .refl⟩ cx
  have hI : I k2 := by
    have : ∀ {i j}, Relation.ReflTransGen (fun i j => I i → I j) i j → I i → I j := by
      intro i j hr hi
      induction hr with
      | refl => exact hi
      | tail _ hl ih => exact hl ih
    exact this hr ⟨w, y0, .refl⟩
  obtain ⟨z, hz, hfz⟩ := hI
  obtain ⟨z', b2, c2', h1, h2, h3, h4⟩ := hQ k2 hk2
  rw [hz] at h1
  cases h1
  rw [h4] at c2
  rw [e1] at cy
  have : z = w' := by
    obtain ⟨n1, n2, n3⟩ := tri_ne hm h3
    have n4 := tri_ne hm tw'
    rcases C.apart h2 hw' h3 tw' (y := y) (z := 0) (by
      intro q hq
      left
      rcases List.mem_append.1 hq with hq | hq
      · exact Cell_iff.1 c2 q (mem_twelve.1 hq)
      · exact Cell_iff.1 cy q (mem_twelve.1 hq)) with ⟨-, rfl, rfl⟩ | h | h
    · rcases hm.triUnique _ _ _ _ h3 tw' (by left; rfl) with r | r | r
      · exact r.symm
      · subst r
        obtain ⟨d3, h3⟩ := tri_tet4 h3
        rw [(tet4_parts (tet4_turns h3).2.2.2.2.1).2.2.2] at tw'
        cases tw'
        exact absurd rfl n1
      · subst r
        rw [tri_pfe h3] at tw'
        cases tw'
        exact absurd rfl n1
    · exact absurd h.1 n1
    · exact absurd h.1 n3
  rw [← this]
  exact hfz

end Tet
