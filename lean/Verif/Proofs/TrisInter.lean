import Verif.Proofs.StarTime

/-!
# Proofs about intersections with several triangles
-/

namespace Tet
open Spec Vec4
variable {K V T : Type} [Field K] [LinearOrder K] [IsStrictOrderedRing K] {m : Mesh (Pt K) V T}

/-- What `edge_raw` found. -/
def Hit (m : Mesh (Pt K) V T) (tris : List V3) (i : TriInter K × V3) : Prop :=
  HasEdge m i.1.edge.1 i.1.edge.2 ∧ i.2 ∈ tris ∧ ∃ b3 b4,
    m.triEdgeBary i.2.1 i.2.2.1 i.2.2.2 i.1.edge.1 i.1.edge.2 = some [i.1.bary.1, i.1.bary.2.1, i.1.bary.2.2, b3, b4] ∧
    Mesh.weakSign [i.1.bary.1, i.1.bary.2.1, i.1.bary.2.2, b3, b4] = true

def AllPlaced (m : Mesh (Pt K) V T) (tris : List V3) : Prop := ∀ t ∈ tris, Spec.Placed m t.1 ∧ Spec.Placed m t.2.1 ∧ Spec.Placed m t.2.2

theorem crossingTris_ok (hm : Consistent m) {tris : List V3} (hp : AllPlaced m tris) {w : Walker} (hw : OnTet m w) :
    ∀ rest : List V3, (∀ t ∈ rest, t ∈ tris) → ∃ r, m.crossingTris tris w rest = some r ∧ ∀ i, r = some i → Hit m tris i ∧ m.edge w = some i.1.edge
  | [], _ => ⟨none, rfl, by simp⟩
  | t :: rest, hr => by
    obtain ⟨⟨a, b, c, d⟩, hq⟩ := hw
    have he := (tet4_parts hq).2.2.1
    have ha : Spec.Placed m a := placed_tet hm ⟨w, hq⟩ (by simp [list4])
    have hb : Spec.Placed m b := placed_tet hm ⟨w, hq⟩ (by simp [list4])
    have ht := hr t List.mem_cons_self
    obtain ⟨h0, h1, h2⟩ := hp t ht
    obtain ⟨x0, x1, x2, x3, x4, hx⟩ := triEdgeBary_some h0 h1 h2 ha hb
    rw [Mesh.crossingTris, he]
    simp only [Option.bind_eq_bind, Option.bind_some, hx]
    split_ifs with hc
    · refine ⟨_, rfl, ?_⟩
      rintro i h
      cases h
      refine ⟨⟨hm.toT.hasEdge_tet.2 ⟨c, d, w, hq⟩, ht, x3, x4, hx, ?_⟩, rfl⟩
      simp only [Bool.or_eq_true, Bool.and_eq_true] at hc
      simp only [Mesh.weakSign, Bool.or_eq_true]
      exact hc.imp (fun h => h.2) id
    · obtain ⟨r, k1, k2⟩ := crossingTris_ok hm hp ⟨_, hq⟩ rest fun t h => hr t (List.mem_cons_of_mem _ h)
      rw [he] at k2
      exact ⟨r, k1, k2⟩

theorem firstCrossingTris_ok (hm : Consistent m) {tris : List V3} (hp : AllPlaced m tris) :
    ∀ ws : List Walker, (∀ w ∈ ws, OnTet m w) → ∃ r, m.firstCrossingTris tris ws = some r ∧
      ∀ x, r = some x → Hit m tris x.2 ∧ x.1 ∈ ws ∧ m.edge x.1 = some x.2.1.edge
  | [], _ => ⟨none, rfl, by simp⟩
  | w :: ws, h => by
    obtain ⟨r, h1, h2⟩ := crossingTris_ok hm hp (h w List.mem_cons_self) tris fun _ h => h
    rw [Mesh.firstCrossingTris]
    simp only [Option.bind_eq_bind, h1, Option.bind_some]
    cases r with
    | none =>
      obtain ⟨r, h3, h4⟩ := firstCrossingTris_ok hm hp ws fun w hw => h w (List.mem_cons_of_mem _ hw)
      exact ⟨r, h3, fun x hx => ⟨(h4 x hx).1, List.mem_cons_of_mem _ (h4 x hx).2.1, (h4 x hx).2.2⟩⟩
    | some i =>
      refine ⟨_, rfl, fun x hx => ?_⟩
      cases hx
      exact ⟨(h2 i rfl).1, List.mem_cons_self, (h2 i rfl).2⟩

theorem crossTrisLoop_ok (hm : Consistent m) {tris : List V3} (hp : AllPlaced m tris) {E : List (VId × VId)}
    (hE : ∀ w e, m.edge w = some e → sorted2 e ∈ E) :
    ∀ (n : Nat) (visited : List (VId × VId)), (E.filter fun x => decide (x ∉ visited)).length ≤ n → ∀ search : List Walker,
      (∀ w ∈ search, OnTet m w) → ∃ N r, (∀ fuel ≥ N, ∀ steps ≥ N, m.crossTrisLoop fuel tris steps search visited = some r) ∧
        ((∀ i ∈ r, Hit m tris i ∧ sorted2 i.1.edge ∉ visited) ∧ (r.map fun i => sorted2 i.1.edge).Nodup) := by
  intro n
  induction n with
  | zero =>
    intro visited hn search
    have hv : ∀ e ∈ E, e ∈ visited := by
      intro e he
      by_contra hc
      have := List.length_pos_of_mem (List.mem_filter.2 ⟨he, by simpa using hc⟩ : e ∈ E.filter fun x => decide (x ∉ visited))
      omega
    intro hs
    refine ⟨search.length + 1, [], fun fuel hf => ?_, by simp, by simp⟩
    clear hf hn
    induction search with
    | nil =>
      intro steps hst
      obtain ⟨k, rfl⟩ : ∃ k, steps = k + 1 := ⟨steps - 1, by simp at hst; omega⟩
      rfl
    | cons w search ih =>
      intro steps hst
      obtain ⟨k, rfl⟩ : ∃ k, steps = k + 1 := ⟨steps - 1, by simp at hst; omega⟩
      obtain ⟨⟨a, b, c, d⟩, hq⟩ := hs w List.mem_cons_self
      have he := (tet4_parts hq).2.2.1
      rw [Mesh.crossTrisLoop, he]
      simp only [Option.bind_eq_bind, Option.bind_some, if_pos (hv _ (hE w _ he))]
      exact ih (fun x hx => hs x (List.mem_cons_of_mem _ hx)) k (by simp at hst; omega)
  | succ n ihn =>
    intro visited hn search
    induction search with
    | nil =>
      intro _
      refine ⟨1, [], fun fuel _ steps hst => ?_, by simp, by simp⟩
      obtain ⟨k, rfl⟩ : ∃ k, steps = k + 1 := ⟨steps - 1, by omega⟩
      rfl
    | cons w search ih =>
      intro hs
      obtain ⟨⟨a, b, c, d⟩, hq⟩ := hs w List.mem_cons_self
      have he := (tet4_parts hq).2.2.1
      have hs' : ∀ x ∈ search, OnTet m x := fun x hx => hs x (List.mem_cons_of_mem _ hx)
      by_cases hv : sorted2 (a, b) ∈ visited
      · obtain ⟨N, r, k1, k2⟩ := ih hs'
        refine ⟨N + 1, r, fun fuel hf steps hst => ?_, k2⟩
        obtain ⟨k, rfl⟩ : ∃ k, steps = k + 1 := ⟨steps - 1, by omega⟩
        rw [Mesh.crossTrisLoop, he]
        simp only [Option.bind_eq_bind, Option.bind_some, if_pos hv]
        exact k1 fuel (by omega) k (by omega)
      · have hlt := unvisited_lt (hE w _ he) hv
        obtain ⟨x, hx, hh⟩ := crossingTris_ok hm hp (hs w List.mem_cons_self) tris fun _ h => h
        cases x with
        | some i =>
          obtain ⟨hi, hie⟩ := hh i rfl
          have hie : (a, b) = i.1.edge := Option.some.inj (he.symm.trans hie)
          rw [hie] at he hv hlt
          obtain ⟨_, ⟨N1, hN1⟩, more, rfl, g1, -⟩ := aroundEdge_does hm he
          obtain ⟨N, r, k1, k2, k3⟩ := ihn (sorted2 i.1.edge :: visited) (by omega) (more.reverse ++ search) (by
            intro x hx
            rcases List.mem_append.1 hx with hx | hx
            · obtain ⟨f, hf, -⟩ := g1 x (List.mem_reverse.1 hx)
              exact edge_onTet hf
            · exact hs' x hx)
          refine ⟨max N1 (N + 1), i :: r, fun fuel hf steps hst => ?_, ?_, ?_⟩
          · obtain ⟨k, rfl⟩ : ∃ k, steps = k + 1 := ⟨steps - 1, by omega⟩
            rw [Mesh.crossTrisLoop, he]
            simp only [Option.bind_eq_bind, Option.bind_some, if_neg hv, hx, hN1 fuel (by omega), k1 fuel (by omega) k (by omega)]
            rfl
          · intro j hj
            rcases List.mem_cons.1 hj with rfl | hj
            · exact ⟨hi, hv⟩
            · exact ⟨(k2 j hj).1, fun h => (k2 j hj).2 (List.mem_cons_of_mem _ h)⟩
          · rw [List.map_cons, List.nodup_cons]
            refine ⟨fun h => ?_, k3⟩
            obtain ⟨j, hj, hje⟩ := List.mem_map.1 h
            exact (k2 j hj).2 (by rw [hje]; exact List.mem_cons_self)
        | none =>
          obtain ⟨N, r, k1, k2, k3⟩ := ihn (sorted2 (a, b) :: visited) (by omega) search hs'
          refine ⟨N + 1, r, fun fuel hf steps hst => ?_, fun j hj => ⟨(k2 j hj).1, fun h => (k2 j hj).2 (List.mem_cons_of_mem _ h)⟩, k3⟩
          obtain ⟨k, rfl⟩ : ∃ k, steps = k + 1 := ⟨steps - 1, by omega⟩
          rw [Mesh.crossTrisLoop, he]
          simp only [Option.bind_eq_bind, Option.bind_some, if_neg hv, hx]
          exact k1 fuel (by omega) k (by omega)

theorem trisIntersections_does (hm : Consistent m) {tris : List V3} (hp : AllPlaced m tris) {s : VId × VId} (hs : HasEdge m s.1 s.2)
    (hg : s.1 ≠ GHOST) (hc : StarConnected m s.1) :
    Does (fun fuel => m.trisIntersections fuel tris s) fun r => ∃ l, r = some l ∧ (∀ i ∈ l, Hit m tris i) ∧ (l.map fun i => sorted2 i.1.edge).Nodup := by
  obtain ⟨ro, ⟨N0, hN0⟩, hro⟩ := walkerFromEdge_does hm s
  match ro, hro with
  | none, hro =>
    obtain ⟨c, d, x, hx⟩ := hm.toT.hasEdge_tet.1 hs
    exact absurd ⟨⟨x, (tet4_parts hx).1⟩, hg⟩ hro
  | some none, hro => exact absurd hs (hro hc)
  | some (some w), hro =>
    change m.edge w = some (s.1, s.2) at hro
    obtain ⟨_, ⟨N1, hN1⟩, ring, rfl, hl⟩ := edgeRing_does hm hro
    obtain ⟨r, k1, k2⟩ := firstCrossingTris_ok hm hp (ring.map (·.opp)) (fun x hx => by
      obtain ⟨u, hu, rfl⟩ := List.mem_map.1 hx
      obtain ⟨c, d, hd⟩ := edge_tet4 ((hl u).1 hu)
      rw [(walker_moves u).2.2.2.2.2]
      exact ⟨_, tet4_perm hd P2301⟩)
    cases r with
    | none =>
      refine ⟨some [], ⟨max N0 N1, fun n hn => ?_⟩, [], rfl, by simp, by simp⟩
      have u0 : N0 ≤ n := le_trans (le_max_left _ _) hn
      have u1 : N1 ≤ n := le_trans (le_max_right _ _) hn
      simp only [Mesh.trisIntersections, hN0 n u0, hN1 n u1, k1, Option.bind_eq_bind, Option.bind_some]
      rfl
    | some x =>
      obtain ⟨w', i⟩ := x
      obtain ⟨hi, -, hie⟩ := k2 _ rfl
      obtain ⟨_, ⟨N2, hN2⟩, more, rfl, g1, -⟩ := aroundEdge_does hm hie
      obtain ⟨E, hE⟩ := edges_listed m
      obtain ⟨N, r, j1, j2, j3⟩ := crossTrisLoop_ok hm hp hE _ [sorted2 i.1.edge] le_rfl more.reverse (fun x hx => by
        obtain ⟨f, hf, -⟩ := g1 x (List.mem_reverse.1 hx)
        exact edge_onTet hf)
      refine ⟨some (i :: r), ⟨max (max N0 N1) (max N2 N), fun n hn => ?_⟩, _, rfl, ?_, ?_⟩
      · have u0 : N0 ≤ n := le_trans (le_trans (le_max_left _ _) (le_max_left _ _)) hn
        have u1 : N1 ≤ n := le_trans (le_trans (le_max_right _ _) (le_max_left _ _)) hn
        have u2 : N2 ≤ n := le_trans (le_trans (le_max_left _ _) (le_max_right _ _)) hn
        have u3 : N ≤ n := le_trans (le_trans (le_max_right _ _) (le_max_right _ _)) hn
        simp only at hie
        simp only [Mesh.trisIntersections, hN0 n u0, hN1 n u1, k1, hie, hN2 n u2, j1 n u3 n u3, Option.bind_eq_bind, Option.bind_some]
        rfl
      · intro j hj
        rcases List.mem_cons.1 hj with rfl | hj
        · exact hi
        · exact (j2 j hj).1
      · rw [List.map_cons, List.nodup_cons]
        refine ⟨fun h => ?_, j3⟩
        obtain ⟨j, hj, hje⟩ := List.mem_map.1 h
        exact (j2 j hj).2 (by rw [hje]; exact List.mem_cons_self)

theorem weakSign_sum {a b c d e : K} (h : Mesh.weakSign [a, b, c, d, e] = true) : (0 ≤ a / (a + b + c) ∧ 0 ≤ b / (a + b + c) ∧ 0 ≤ c / (a + b + c) ∧
    0 ≤ d / (a + b + c) ∧ 0 ≤ e / (a + b + c)) ∧ (a + b + c = 0 → a = 0 ∧ b = 0 ∧ c = 0) := by
  rw [weakSign_iff] at h
  simp only [List.mem_cons, List.not_mem_nil, or_false, forall_eq_or_imp, forall_eq] at h
  rcases h with ⟨h1, h2, h3, h4, h5⟩ | ⟨h1, h2, h3, h4, h5⟩
  · have := add_nonneg (add_nonneg h1 h2) h3
    exact ⟨⟨div_nonneg h1 this, div_nonneg h2 this, div_nonneg h3 this, div_nonneg h4 this, div_nonneg h5 this⟩, fun h =>
      ⟨by linarith, by linarith, by linarith⟩⟩
  · have := add_nonpos (add_nonpos h1 h2) h3
    exact ⟨⟨div_nonneg_of_nonpos h1 this, div_nonneg_of_nonpos h2 this, div_nonneg_of_nonpos h3 this, div_nonneg_of_nonpos h4 this,
      div_nonneg_of_nonpos h5 this⟩, fun h => ⟨by linarith, by linarith, by linarith⟩⟩

/-- The point is in both, or the edge is in the plane. -/
theorem triPoint_touches {t : V3} {p0 p1 p2 : Pt K} (h0 : At m t.1 p0) (h1 : At m t.2.1 p1) (h2 : At m t.2.2 p2) (hn : [t.1, t.2.1, t.2.2].Nodup)
    {e : VId × VId} (hne : e.1 ≠ e.2) (he0 : Spec.Placed m e.1) (he1 : Spec.Placed m e.2) {c d : VId} (hd : D (homv m) (e.1, e.2, c, d) ≠ 0)
    {b : K × K × K} {b3 b4 : K}
    (hb : m.triEdgeBary t.1 t.2.1 t.2.2 e.1 e.2 = some [b.1, b.2.1, b.2.2, b3, b4]) (hs : Mesh.weakSign [b.1, b.2.1, b.2.2, b3, b4] = true) :
    (Touches m [t.1, t.2.1, t.2.2] (triPoint p0 p1 p2 b) ∧ Touches m [e.1, e.2] (triPoint p0 p1 p2 b)) ∨ InPlane m t e := by
  obtain ⟨x, y, z⟩ := t
  obtain ⟨u, v⟩ := e
  simp only at h0 h1 h2 hne he0 he1 hb hn hd
  obtain ⟨⟨s0, s1, s2, s3, s4⟩, hz⟩ := weakSign_sum hs
  simp only [List.nodup_cons, List.mem_cons, List.not_mem_nil, or_false, not_or] at hn
  simp only [Mesh.triEdgeBary, Option.bind_eq_bind, Option.bind_eq_some_iff, Option.pure_def, Option.some.injEq, List.cons.injEq, and_true] at hb
  obtain ⟨y0, e0, y1, e1, y2, e2, y3, e3, y4, e4, d0, d1, d2, d3, d4⟩ := hb
  have hc := cramer3 (homv m x) (homv m y) (homv m z) (homv m u) (homv m v)
  have f0 : det (homv m y) (homv m z) (homv m u) (homv m v) = y0 := orient_D e0
  have f1 : det (homv m z) (homv m x) (homv m u) (homv m v) = y1 := orient_D e1
  have f2 : det (homv m x) (homv m y) (homv m u) (homv m v) = y2 := orient_D e2
  have f3 : det (homv m x) (homv m y) (homv m z) (homv m v) = y3 := orient_D e3
  have f4 : det (homv m z) (homv m y) (homv m x) (homv m u) = y4 := orient_D e4
  rw [f0, f1, f2, f3, f4, d0, d1, d2, d3, d4] at hc
  by_cases hsum : b.1 + b.2.1 + b.2.2 = 0
  · right
    obtain ⟨g0, g1, g2⟩ := hz hsum
    have hc' : ∀ i, b3 * homv m u i + b4 * homv m v i = 0 := fun i => by
      have := hc i
      rw [g0, g1, g2] at this
      linear_combination -this
    have z3 : b3 * D (homv m) (u, v, c, d) = 0 := by
      have a0 := hc' 0; have a1 := hc' 1; have a2 := hc' 2; have a3 := hc' 3
      have : b3 • homv m u = (-b4) • homv m v := by
        ext i
        have := hc' i
        simp only [Pi.smul_apply, smul_eq_mul]
        linear_combination this
      have h := congrArg (fun X => det (homv m c) (homv m d) (homv m v) X) this
      rw [show ∀ (k : K) X, det (homv m c) (homv m d) (homv m v) (k • X) = k * det (homv m c) (homv m d) (homv m v) X from fun k X => by
        rw [← fun3_apply, map_smul, smul_eq_mul, fun3_apply], show ∀ (k : K) X, det (homv m c) (homv m d) (homv m v) (k • X) =
        k * det (homv m c) (homv m d) (homv m v) X from fun k X => by rw [← fun3_apply, map_smul, smul_eq_mul, fun3_apply]] at h
      have s1 : det (homv m c) (homv m d) (homv m v) (homv m v) = 0 := by simp only [det, det3]; ring
      have s2 : det (homv m c) (homv m d) (homv m v) (homv m u) = - D (homv m) (u, v, c, d) := by simp only [D, det, det3]; ring
      rw [s1, s2] at h
      linear_combination -h
    have z4 : b4 * D (homv m) (u, v, c, d) = 0 := by
      have : b4 • homv m v = (-b3) • homv m u := by
        ext i
        have := hc' i
        simp only [Pi.smul_apply, smul_eq_mul]
        linear_combination this
      have h := congrArg (fun X => det (homv m c) (homv m d) (homv m u) X) this
      rw [show ∀ (k : K) X, det (homv m c) (homv m d) (homv m u) (k • X) = k * det (homv m c) (homv m d) (homv m u) X from fun k X => by
        rw [← fun3_apply, map_smul, smul_eq_mul, fun3_apply], show ∀ (k : K) X, det (homv m c) (homv m d) (homv m u) (k • X) =
        k * det (homv m c) (homv m d) (homv m u) X from fun k X => by rw [← fun3_apply, map_smul, smul_eq_mul, fun3_apply]] at h
      have s1 : det (homv m c) (homv m d) (homv m u) (homv m u) = 0 := by simp only [det, det3]; ring
      have s2 : det (homv m c) (homv m d) (homv m u) (homv m v) = D (homv m) (u, v, c, d) := by simp only [D, det, det3]; ring
      rw [s1, s2] at h
      linear_combination h
    have b30 := (mul_eq_zero.1 z3).resolve_right hd
    have b40 := (mul_eq_zero.1 z4).resolve_right hd
    have px := placed_of_At h0
    have py := placed_of_At h1
    have pz := placed_of_At h2
    obtain ⟨q, hq⟩ := orient_some px py pz he0
    have f5 : det (homv m x) (homv m y) (homv m z) (homv m u) = q := orient_D hq
    refine ⟨hq.trans ?_, e3.trans (by rw [d3, b30])⟩
    rw [← f5, show det (homv m x) (homv m y) (homv m z) (homv m u) = - det (homv m z) (homv m y) (homv m x) (homv m u) by simp only [det, det3]; ring, f4, d4,
      b40, neg_zero]
  left
  have hh := fun i => triPoint_hom (p0 := p0) (p1 := p1) (p2 := p2) hsum i
  constructor
  · refine touch_of (φ := fun w => if w = x then b.1 / (b.1 + b.2.1 + b.2.2) else if w = y then b.2.1 / (b.1 + b.2.1 + b.2.2) else
      b.2.2 / (b.1 + b.2.1 + b.2.2)) ?_ ?_ ?_
    · intro w _
      split_ifs <;> assumption
    · intro w hw
      simp only [List.mem_cons, List.not_mem_nil, or_false] at hw
      rcases hw with rfl | rfl | rfl
      · exact placed_of_At h0
      · exact placed_of_At h1
      · exact placed_of_At h2
    · intro i
      simp only [List.map_cons, List.map_nil, List.sum_cons, List.sum_nil, if_true, if_neg (Ne.symm hn.1.1), if_neg (Ne.symm hn.1.2),
        if_neg (Ne.symm hn.2.1), add_zero]
      rw [hh i, h0.homv, h1.homv, h2.homv, add_assoc]
  · refine touch_of (φ := fun w => if w = u then b3 / (b.1 + b.2.1 + b.2.2) else b4 / (b.1 + b.2.1 + b.2.2)) ?_ ?_ ?_
    · intro w _
      split_ifs <;> assumption
    · intro w hw
      simp only [List.mem_cons, List.not_mem_nil, or_false] at hw
      rcases hw with rfl | rfl
      · exact he0
      · exact he1
    · intro i
      simp only [List.map_cons, List.map_nil, List.sum_cons, List.sum_nil, if_true, if_neg (Ne.symm hne), add_zero]
      have := hc i
      rw [hh i, ← h0.homv, ← h1.homv, ← h2.homv]
      simp only [div_eq_mul_inv]
      linear_combination (b.1 + b.2.1 + b.2.2)⁻¹ * this

theorem trisPoints_does (hm : Consistent m) (ht : Tiles m) {tris : List V3} (hp : SolidTris m tris) {s : VId × VId} (hs : HasEdge m s.1 s.2)
    (hg : s.1 ≠ GHOST) : Does (fun fuel => m.trisPoints fuel tris s) fun r => ∃ l, r = some l ∧ TrisFound m tris l := by
  have hp' : AllPlaced m tris := fun t h => by
    have := (hp t h).2
    obtain ⟨p0, h0⟩ := this t.1 (by simp)
    obtain ⟨p1, h1⟩ := this t.2.1 (by simp)
    obtain ⟨p2, h2⟩ := this t.2.2 (by simp)
    exact ⟨placed_of_At h0, placed_of_At h1, placed_of_At h2⟩
  unfold Mesh.trisPoints
  refine (trisIntersections_does hm hp' hs hg (ht.star hm s.1)).bind ?_ ?_
  · rintro l ⟨_, h, hl, hn⟩ -
    cases h
    obtain ⟨r, h1, h2⟩ := mapM_all (f := fun x : TriInter K × V3 => do
      let p0 ← m.idx x.2.1
      let p1 ← m.idx x.2.2.1
      let p2 ← m.idx x.2.2.2
      return (x.1.edge, triPoint p0 p1 p2 x.1.bary)) l fun i hi => by
        have := (hp _ (hl i hi).2.1).2
        obtain ⟨p0, h0⟩ := this i.2.1 (by simp)
        obtain ⟨p1, h1⟩ := this i.2.2.1 (by simp)
        obtain ⟨p2, h2⟩ := this i.2.2.2 (by simp)
        exact ⟨_, by simp only [idx_of_At h0, idx_of_At h1, idx_of_At h2]; rfl⟩
    refine (does_const (r := some r) ⟨r, rfl, ?_, ?_⟩).congr fun n => h1
    · have e : (r.map fun x => sorted2 x.1).map some = (l.map fun i => sorted2 i.1.edge).map some := by
        have := congrArg (List.map (Option.map fun x : (VId × VId) × Pt K => sorted2 x.1)) h2
        rw [List.map_map, List.map_map] at this
        rw [List.map_map, List.map_map]
        refine Eq.trans (Eq.trans ?_ this.symm) (List.map_congr_left fun i hi => ?_)
        · rfl
        · have := (hp _ (hl i hi).2.1).2
          obtain ⟨p0, h0⟩ := this i.2.1 (by simp)
          obtain ⟨p1, h1⟩ := this i.2.2.1 (by simp)
          obtain ⟨p2, h2⟩ := this i.2.2.2 (by simp)
          simp only [Function.comp, idx_of_At h0, idx_of_At h1, idx_of_At h2]
          rfl
      exact List.Nodup.of_map some (e ▸ hn.map (Option.some_injective _))
    · intro x hx
      have : some x ∈ r.map some := List.mem_map_of_mem hx
      rw [← h2, List.mem_map] at this
      obtain ⟨i, hi, hix⟩ := this
      obtain ⟨he, hti, b3, b4, hb, hw⟩ := hl i hi
      have := (hp _ hti).2
      obtain ⟨p0, h0⟩ := this i.2.1 (by simp)
      obtain ⟨p1, h1⟩ := this i.2.2.1 (by simp)
      obtain ⟨p2, h2⟩ := this i.2.2.2 (by simp)
      simp only [idx_of_At h0, idx_of_At h1, idx_of_At h2] at hix
      cases hix
      obtain ⟨c, d, hcd⟩ := hm.toT.hasEdge_tet.1 he
      refine ⟨he, i.2, hti, triPoint_touches h0 h1 h2 (hp _ hti).1 ?_ (placed_tet hm hcd (by simp [list4])) (placed_tet hm hcd (by simp [list4]))
        (c := c) (d := d) (ht.positive.pos hcd).ne' hb hw⟩
      obtain ⟨w, hw⟩ := hcd
      have := hm.distinct _ _ _ _ _ hw
      simp only [List.nodup_cons, List.mem_cons, List.not_mem_nil, or_false, not_or] at this
      exact this.1.1
  · rintro ⟨_, h, -⟩
    cases h

end Tet
