import Verif.Model.Points
import Verif.Spec.Points
import Verif.Proofs.SteinerPath
import Verif.Proofs.GeneralTri

/-!
# Proofs about intersection points and tests with tolerances
-/

namespace Tet
open Spec Vec4
variable {K V T : Type} [Field K] [LinearOrder K] [IsStrictOrderedRing K] {m : Mesh (Pt K) V T}

/-! ### Points in triangles -/

theorem crossingEdge_bary {t : V3} {w : Walker} {i : TriInter K} (h : m.crossingEdge t w = some (some i)) :
    ∃ b3 b4, m.triEdgeBary t.1 t.2.1 t.2.2 i.edge.1 i.edge.2 = some [i.bary.1, i.bary.2.1, i.bary.2.2, b3, b4] ∧
      Mesh.sameSign [i.bary.1, i.bary.2.1, i.bary.2.2, b3, b4] = true := by
  simp only [Mesh.crossingEdge, Option.bind_eq_bind, Option.bind_eq_some_iff] at h
  obtain ⟨⟨a, b⟩, -, bary, h2, h⟩ := h
  split_ifs at h with hs
  · obtain ⟨b0, e0, b1, e1, b2, e2, h⟩ := by simpa only [Option.bind_eq_some_iff, Option.pure_def, Option.some.injEq] using h
    subst h
    have h3 := h2
    simp only [Mesh.triEdgeBary, Option.bind_eq_bind, Option.bind_eq_some_iff, Option.pure_def, Option.some.injEq] at h3
    obtain ⟨y0, -, y1, -, y2, -, y3, -, y4, -, rfl⟩ := h3
    simp only [List.getElem?_cons_zero, List.getElem?_cons_succ, Option.some.injEq] at e0 e1 e2
    subst e0 e1 e2
    exact ⟨y3, y4, h2, hs⟩
  · simp at h

theorem crossLoop_bary {t : V3} {fuel : Nat} : ∀ {steps : Nat} {search : List Walker} {visited l}, m.crossLoop fuel t steps search visited = some l →
    ∀ i ∈ l, ∃ w, m.crossingEdge t w = some (some i)
  | 0, _, _, _, h => by simp [Mesh.crossLoop] at h
  | _ + 1, [], _, _, h => by cases h; simp
  | steps + 1, w :: search, visited, l, h => by
    simp only [Mesh.crossLoop, Option.bind_eq_bind, Option.bind_eq_some_iff] at h
    obtain ⟨e, -, h⟩ := h
    split_ifs at h with hv
    · exact crossLoop_bary h
    · obtain ⟨r, h1, h⟩ := Option.bind_eq_some_iff.1 h
      cases r with
      | none => exact crossLoop_bary h
      | some j =>
        simp only [Option.bind_eq_some_iff, Option.pure_def, Option.some.injEq] at h
        obtain ⟨more, -, rest, h2, rfl⟩ := h
        intro i hi
        rcases List.mem_cons.1 hi with rfl | hi
        · exact ⟨w, h1⟩
        · exact crossLoop_bary h2 i hi

theorem firstCrossing_bary {t : V3} : ∀ {ws : List Walker} {w i}, m.firstCrossing t ws = some (some (w, i)) → ∃ w, m.crossingEdge t w = some (some i)
  | [], _, _, h => by cases h
  | u :: ws, w, i, h => by
    simp only [Mesh.firstCrossing, Option.bind_eq_bind, Option.bind_eq_some_iff] at h
    obtain ⟨r, h1, h⟩ := h
    cases r with
    | none => exact firstCrossing_bary h
    | some j =>
      simp only [Option.pure_def, Option.some.injEq, Prod.mk.injEq] at h
      obtain ⟨rfl, rfl⟩ := h
      exact ⟨_, h1⟩

theorem triIntersections_bary {t : V3} {fuel : Nat} {l} (h : m.triIntersections fuel t = some l) : ∀ i ∈ l, ∃ w, m.crossingEdge t w = some (some i) := by
  simp only [Mesh.triIntersections, Option.bind_eq_bind, Option.bind_eq_some_iff] at h
  obtain ⟨_, -, w, -, ring, -, r, h1, h⟩ := h
  cases r with
  | none => cases h; simp
  | some x =>
    obtain ⟨w, i⟩ := x
    simp only [Option.bind_eq_some_iff, Option.pure_def, Option.some.injEq] at h
    obtain ⟨e, -, more, -, rest, h2, rfl⟩ := h
    intro j hj
    rcases List.mem_cons.1 hj with rfl | hj
    · exact firstCrossing_bary h1
    · exact crossLoop_bary h2 j hj

theorem sameSign_sum {a b c d e : K} (h : Mesh.sameSign [a, b, c, d, e] = true) : 0 < a / (a + b + c) ∧ 0 < b / (a + b + c) ∧ 0 < c / (a + b + c) ∧
    0 < d / (a + b + c) ∧ 0 < e / (a + b + c) ∧ a + b + c ≠ 0 := by
  simp only [Mesh.sameSign, Bool.or_eq_true, List.all_eq_true, decide_eq_true_eq, List.mem_cons, List.not_mem_nil, or_false, forall_eq_or_imp,
    forall_eq] at h
  rcases h with ⟨h1, h2, h3, h4, h5⟩ | ⟨h1, h2, h3, h4, h5⟩
  · have := add_pos (add_pos h1 h2) h3
    exact ⟨div_pos h1 this, div_pos h2 this, div_pos h3 this, div_pos h4 this, div_pos h5 this, this.ne'⟩
  · have := add_neg (add_neg h1 h2) h3
    exact ⟨div_pos_of_neg_of_neg h1 this, div_pos_of_neg_of_neg h2 this, div_pos_of_neg_of_neg h3 this, div_pos_of_neg_of_neg h4 this,
      div_pos_of_neg_of_neg h5 this, this.ne⟩

theorem triPoint_hom {p0 p1 p2 : Pt K} {b : K × K × K} (h : b.1 + b.2.1 + b.2.2 ≠ 0) (i : Fin 4) :
    hom (triPoint p0 p1 p2 b) i = b.1 / (b.1 + b.2.1 + b.2.2) * hom p0 i + b.2.1 / (b.1 + b.2.1 + b.2.2) * hom p1 i + b.2.2 / (b.1 + b.2.1 + b.2.2) * hom p2 i := by
  have hs : b.1 / (b.1 + b.2.1 + b.2.2) + b.2.1 / (b.1 + b.2.1 + b.2.2) + b.2.2 / (b.1 + b.2.1 + b.2.2) = 1 := by
    rw [← add_div, ← add_div, div_self h]
  have aux : ∀ x y z : K, x + (y - x) * b.2.1 / (b.1 + b.2.1 + b.2.2) + (z - x) * b.2.2 / (b.1 + b.2.1 + b.2.2) =
      b.1 / (b.1 + b.2.1 + b.2.2) * x + b.2.1 / (b.1 + b.2.1 + b.2.2) * y + b.2.2 / (b.1 + b.2.1 + b.2.2) * z := by
    intro x y z
    linear_combination (-x) * hs
  match i with
  | 0 => exact aux _ _ _
  | 1 => exact aux _ _ _
  | 2 => exact aux _ _ _
  | 3 => change (1 : K) = _ * 1 + _ * 1 + _ * 1; linear_combination -hs

theorem placed_of_At {v : VId} {p : Pt K} (h : At m v p) : Spec.Placed m v := by
  obtain ⟨-, y, h2, -⟩ := h
  exact .inr (by rw [h2]; simp)

/-- The point is in both. -/
theorem triPoint_amid {t : V3} {p0 p1 p2 : Pt K} (h0 : At m t.1 p0) (h1 : At m t.2.1 p1) (h2 : At m t.2.2 p2) (hn : [t.1, t.2.1, t.2.2].Nodup)
    {e : VId × VId} (hne : e.1 ≠ e.2) (he0 : Spec.Placed m e.1) (he1 : Spec.Placed m e.2) {b : K × K × K} {b3 b4 : K}
    (hb : m.triEdgeBary t.1 t.2.1 t.2.2 e.1 e.2 = some [b.1, b.2.1, b.2.2, b3, b4]) (hs : Mesh.sameSign [b.1, b.2.1, b.2.2, b3, b4] = true) :
    Amid m (corners (.tri t)) (triPoint p0 p1 p2 b) ∧ Amid m (corners (.edge e)) (triPoint p0 p1 p2 b) := by
  obtain ⟨x, y, z⟩ := t
  obtain ⟨u, v⟩ := e
  simp only at h0 h1 h2 hne he0 he1 hb hn
  obtain ⟨s0, s1, s2, s3, s4, hsum⟩ := sameSign_sum hs
  have hh := fun i => triPoint_hom (p0 := p0) (p1 := p1) (p2 := p2) hsum i
  simp only [List.nodup_cons, List.mem_cons, List.not_mem_nil, or_false, not_or] at hn
  constructor
  · refine amid_of (φ := fun w => if w = x then b.1 / (b.1 + b.2.1 + b.2.2) else if w = y then b.2.1 / (b.1 + b.2.1 + b.2.2) else
      b.2.2 / (b.1 + b.2.1 + b.2.2)) ?_ ?_ ?_
    · intro w _
      split_ifs <;> assumption
    · intro w hw
      simp only [corners, List.mem_cons, List.not_mem_nil, or_false] at hw
      rcases hw with rfl | rfl | rfl
      · exact placed_of_At h0
      · exact placed_of_At h1
      · exact placed_of_At h2
    · intro i
      simp only [corners, List.map_cons, List.map_nil, List.sum_cons, List.sum_nil, if_true, if_neg (Ne.symm hn.1.1), if_neg (Ne.symm hn.1.2),
        if_neg (Ne.symm hn.2.1), add_zero]
      rw [hh i, h0.homv, h1.homv, h2.homv, add_assoc]
  · simp only [Mesh.triEdgeBary, Option.bind_eq_bind, Option.bind_eq_some_iff, Option.pure_def, Option.some.injEq, List.cons.injEq, and_true] at hb
    obtain ⟨y0, e0, y1, e1, y2, e2, y3, e3, y4, e4, d0, d1, d2, d3, d4⟩ := hb
    have hc := cramer3 (homv m x) (homv m y) (homv m z) (homv m u) (homv m v)
    have f0 : det (homv m y) (homv m z) (homv m u) (homv m v) = y0 := orient_D e0
    have f1 : det (homv m z) (homv m x) (homv m u) (homv m v) = y1 := orient_D e1
    have f2 : det (homv m x) (homv m y) (homv m u) (homv m v) = y2 := orient_D e2
    have f3 : det (homv m x) (homv m y) (homv m z) (homv m v) = y3 := orient_D e3
    have f4 : det (homv m z) (homv m y) (homv m x) (homv m u) = y4 := orient_D e4
    rw [f0, f1, f2, f3, f4, d0, d1, d2, d3, d4] at hc
    refine amid_of (φ := fun w => if w = u then b3 / (b.1 + b.2.1 + b.2.2) else b4 / (b.1 + b.2.1 + b.2.2)) ?_ ?_ ?_
    · intro w _
      split_ifs <;> assumption
    · intro w hw
      simp only [corners, List.mem_cons, List.not_mem_nil, or_false] at hw
      rcases hw with rfl | rfl
      · exact he0
      · exact he1
    · intro i
      simp only [corners, List.map_cons, List.map_nil, List.sum_cons, List.sum_nil, if_true, if_neg hne.symm, add_zero]
      rw [hh i, ← h0.homv, ← h1.homv, ← h2.homv]
      have := hc i
      refine mul_right_cancel₀ hsum ?_
      simp only [add_mul, mul_right_comm _ _ (b.1 + b.2.1 + b.2.2)]
      simp only [mul_right_comm _ (homv m _ i), div_mul_cancel₀ _ hsum]
      linear_combination this

theorem triPoints_does (hm : Consistent m) {t : V3} {p0 p1 p2 : Pt K} (h0 : At m t.1 p0) (h1 : At m t.2.1 p1) (h2 : At m t.2.2 p2)
    (hn : [t.1, t.2.1, t.2.2].Nodup) : Does (fun fuel => m.triPoints fuel t) (TriPointsFound m t) := by
  let f : VId × VId → (VId × VId) × Pt K := fun e => (e, match m.triEdgeBary t.1 t.2.1 t.2.2 e.1 e.2 with
    | some (b0 :: b1 :: b2 :: _) => triPoint p0 p1 p2 (b0, b1, b2)
    | _ => p0)
  have key : ∀ fuel l, m.triIntersections fuel t = some l → l.map (fun i => (i.edge, triPoint p0 p1 p2 i.bary)) = (l.map (·.edge)).map f := by
    intro fuel l h
    rw [List.map_map]
    refine List.map_congr_left fun i hi => ?_
    obtain ⟨w, hw⟩ := triIntersections_bary h i hi
    obtain ⟨b3, b4, hb, -⟩ := crossingEdge_bary hw
    simp only [f, Function.comp_apply, hb]
  refine Does.congr (f := fun fuel => ((m.triIntersections fuel t).map (·.map (·.edge))).bind fun l => some (l.map f)) ?_ ?_
  · refine (triIntersections_does hm t).bind ?_ fun h _ => ⟨h, by simp⟩
    intro l hl ⟨N, hN⟩
    refine does_const ⟨?_, ?_⟩
    · simpa [Function.comp_def, f] using hl
    · rintro l' h x hx
      cases h
      obtain ⟨e, he, rfl⟩ := List.mem_map.1 hx
      obtain ⟨xs, h3, h4⟩ := Option.map_eq_some_iff.1 (hN N le_rfl)
      rw [← h4] at he
      obtain ⟨i, hi, rfl⟩ := List.mem_map.1 he
      obtain ⟨w, hw⟩ := triIntersections_bary h3 i hi
      obtain ⟨b3, b4, hb, hs⟩ := crossingEdge_bary hw
      have hc := hl.1 i.edge (h4 ▸ List.mem_map_of_mem hi)
      obtain ⟨c, d, u, hq⟩ := hm.toT.hasEdge_tet.1 hc.1
      have hu := (tet4_parts hq).2.2.1
      have := triPoint_amid h0 h1 h2 hn (edge_ne hm.toT hu) (placed_tet hm ⟨u, hq⟩ (by simp [list4])) (placed_tet hm ⟨u, hq⟩ (by simp [list4])) hb hs
      simpa only [f, hb] using this
  · intro n
    simp only [Mesh.triPoints, idx_of_At h0, idx_of_At h1, idx_of_At h2, Option.bind_eq_bind, Option.bind_some, Option.pure_def]
    cases h : m.triIntersections n t with
    | none => rfl
    | some l => simp only [Option.map_some, Option.bind_some, key n l h]

/-! ### Distances from planes -/

theorem planeDistance_eq {norm : Pt K → K} (hN : IsNorm norm) {a b c d p : Pt K} {r : K} (hd : 0 < orient3d a b c d) :
    FarBeyond a b c d p r ↔ r ≤ Mesh.planeDistance norm a b c p := by
  have e1 : ((b.sub a).cross (c.sub a)).dot (d.sub a) = -orient3d a b c d := by
    simp only [orient3d, Pt.sub, Pt.dot, Pt.cross]; ring
  have e2 : ((b.sub a).cross (c.sub a)).dot (b.sub a) = 0 := by
    simp only [Pt.sub, Pt.dot, Pt.cross]; ring
  have e3 : ((b.sub a).cross (c.sub a)).dot (c.sub a) = 0 := by
    simp only [Pt.sub, Pt.dot, Pt.cross]; ring
  have e4 : ∀ n : Pt K, n.dot (b.sub a) = 0 → n.dot (c.sub a) = 0 → ∀ w : Pt K, n.dot w * ((b.sub a).cross (c.sub a)).norm2 =
      n.dot ((b.sub a).cross (c.sub a)) * ((b.sub a).cross (c.sub a)).dot w := by
    generalize b.sub a = u
    generalize c.sub a = v
    intro n h1 h2 w
    simp only [Pt.norm2, Pt.dot, Pt.cross] at h1 h2 ⊢
    linear_combination -((v.y * w.z - v.z * w.y) * (u.y * v.z - u.z * v.y) + (v.z * w.x - v.x * w.z) * (u.z * v.x - u.x * v.z) +
      (v.x * w.y - v.y * w.x) * (u.x * v.y - u.y * v.x)) * h1 - ((w.y * u.z - w.z * u.y) * (u.y * v.z - u.z * v.y) +
      (w.z * u.x - w.x * u.z) * (u.z * v.x - u.x * v.z) + (w.x * u.y - w.y * u.x) * (u.x * v.y - u.y * v.x)) * h2
  unfold FarBeyond Mesh.planeDistance
  generalize (b.sub a).cross (c.sub a) = N at *
  have hsq := hN.sq N
  have h0 := hN.nonneg N
  generalize norm N = s at *
  have hs : 0 < s := by
    rcases h0.lt_or_eq with h | h
    · exact h
    · exfalso
      rw [← h, mul_zero] at hsq
      simp only [Pt.norm2, Pt.dot] at hsq
      have hx : N.x = 0 := by
        have := mul_self_nonneg N.x; have := mul_self_nonneg N.y; have := mul_self_nonneg N.z
        exact mul_self_eq_zero.1 (by linarith)
      have hy : N.y = 0 := by
        have := mul_self_nonneg N.x; have := mul_self_nonneg N.y; have := mul_self_nonneg N.z
        exact mul_self_eq_zero.1 (by linarith)
      have hz : N.z = 0 := by
        have := mul_self_nonneg N.x; have := mul_self_nonneg N.y; have := mul_self_nonneg N.z
        exact mul_self_eq_zero.1 (by linarith)
      simp only [Pt.dot, hx, hy, hz, zero_mul, add_zero] at e1
      linarith
  have hdot : ∀ w, (Pt.smul s⁻¹ N).dot w = s⁻¹ * N.dot w := by
    intro w
    simp only [Pt.smul, Pt.dot]
    ring
  have hinv : 0 < s⁻¹ := inv_pos.2 hs
  constructor
  · rintro ⟨n, k1, k2, k3, k4, k5⟩
    have j := e4 n k2 k3
    have jn := j n
    have jd := j (d.sub a)
    have jp := j (p.sub a)
    have hsym : N.dot n = n.dot N := by simp only [Pt.dot]; ring
    rw [show n.dot n = n.norm2 from rfl, k1, one_mul, hsym] at jn
    have hκ : n.dot N = s := by
      have h1 : (n.dot N - s) * (n.dot N + s) = 0 := by linear_combination -hsq - jn
      rcases mul_eq_zero.1 h1 with h | h
      · linarith
      · exfalso
        have h2 : n.dot N = -s := by linarith
        rw [h2, ← hsq, e1] at jd
        have h3 : n.dot (d.sub a) * (s * s) < 0 := mul_neg_of_neg_of_pos k4 (mul_pos hs hs)
        have h4 : 0 < -s * -orient3d a b c d := by
          rw [neg_mul_neg]
          exact mul_pos hs hd
        linarith
    rw [hκ, ← hsq] at jp
    rw [hdot]
    have : s * s⁻¹ = 1 := mul_inv_cancel₀ hs.ne'
    have h5 : n.dot (p.sub a) = s⁻¹ * N.dot (p.sub a) := by
      refine mul_right_cancel₀ (mul_pos hs hs).ne' ?_
      rw [jp]
      linear_combination (-s * N.dot (p.sub a)) * this
    rw [← h5]
    exact k5
  · intro h
    refine ⟨Pt.smul s⁻¹ N, ?_, ?_, ?_, ?_, h⟩
    · have : s * s⁻¹ = 1 := mul_inv_cancel₀ hs.ne'
      have h1 : (Pt.smul s⁻¹ N).norm2 = s⁻¹ * s⁻¹ * N.norm2 := by
        simp only [Pt.norm2, Pt.smul, Pt.dot]
        ring
      rw [h1, ← hsq]
      linear_combination (s * s⁻¹ + 1) * this
    · rw [hdot, e2, mul_zero]
    · rw [hdot, e3, mul_zero]
    · rw [hdot, e1]
      exact mul_neg_of_pos_of_neg hinv (neg_neg_of_pos hd)

theorem idxOri_of_At {v : VId} {p : Pt K} (h : At m v p) : m.idxOri v = some p := by
  obtain ⟨g0, y, h2, h3⟩ := h
  simp [Mesh.idxOri, g0, Mesh.idx, h2, h3]

theorem close_solid {norm : Pt K → K} (hN : IsNorm norm) {a b c d p : VId} {pa pb pc pd pp : Pt K} (ha : At m a pa) (hb : At m b pb)
    (hc : At m c pc) (hd : At m d pd) (hp : At m p pp) (ho : 0 < orient3d pa pb pc pd) {tol : K} :
    ∃ r, m.tetCloseToVertex norm tol a b c d p = some r ∧ (r = true ↔ ¬ FarBeyond pd pc pb pa pp tol ∧ ¬ FarBeyond pc pd pa pb pp tol ∧
      ¬ FarBeyond pb pa pd pc pp tol ∧ ¬ FarBeyond pa pb pc pd pp tol) := by
  have hg : [a, b, c, d].findIdx? (· == GHOST) = none := by
    rw [List.findIdx?_eq_none_iff]
    intro v hv
    simp only [List.mem_cons, List.not_mem_nil, or_false] at hv
    rcases hv with rfl | rfl | rfl | rfl
    · simpa using ha.1
    · simpa using hb.1
    · simpa using hc.1
    · simpa using hd.1
  refine ⟨_, by simp only [Mesh.tetCloseToVertex, idxOri_of_At ha, idxOri_of_At hb, idxOri_of_At hc, idxOri_of_At hd, idxOri_of_At hp,
    Option.bind_eq_bind, Option.bind_some, hg]; rfl, ?_⟩
  have o1 : orient3d pd pc pb pa = orient3d pa pb pc pd := by simp only [orient3d, Pt.sub, Pt.dot, Pt.cross]; ring
  have o2 : orient3d pc pd pa pb = orient3d pa pb pc pd := by simp only [orient3d, Pt.sub, Pt.dot, Pt.cross]; ring
  have o3 : orient3d pb pa pd pc = orient3d pa pb pc pd := by simp only [orient3d, Pt.sub, Pt.dot, Pt.cross]; ring
  rw [planeDistance_eq hN (by rw [o1]; exact ho), planeDistance_eq hN (by rw [o2]; exact ho), planeDistance_eq hN (by rw [o3]; exact ho),
    planeDistance_eq hN ho]
  simp only [Option.filter_none, Option.isSome_none, Bool.false_eq_true, if_false, decide_eq_true_eq, max_lt_iff, WithBot.coe_lt_coe, not_le]
  tauto

theorem planeDistance_rot (norm : Pt K → K) (a b c p : Pt K) : Mesh.planeDistance norm b c a p = Mesh.planeDistance norm a b c p := by
  have e : (c.sub b).cross (a.sub b) = (b.sub a).cross (c.sub a) := by
    simp only [Pt.sub, Pt.cross, Pt.mk.injEq]
    refine ⟨?_, ?_, ?_⟩ <;> ring
  unfold Mesh.planeDistance
  rw [e]
  generalize norm _ = s
  simp only [Pt.sub, Pt.cross, Pt.smul, Pt.dot]
  ring

theorem planeDistance_ghost {norm : Pt K → K} (hN : IsNorm norm) {a b c o p : Pt K} {r : K} (hd : orient3d a b c o < 0) :
    (∀ n : Pt K, n.norm2 = 1 → n.dot (b.sub a) = 0 → n.dot (c.sub a) = 0 → 0 < n.dot (o.sub a) → n.dot (p.sub a) < r) ↔
      Mesh.planeDistance norm a b c p < r := by
  let d : Pt K := ⟨2 * a.x - o.x, 2 * a.y - o.y, 2 * a.z - o.z⟩
  have h1 : orient3d a b c d = -orient3d a b c o := by
    simp only [d, orient3d, Pt.sub, Pt.dot, Pt.cross]; ring
  have h2 : ∀ n : Pt K, n.dot (d.sub a) = -n.dot (o.sub a) := by
    intro n
    simp only [d, Pt.sub, Pt.dot]; ring
  rw [← not_le, ← planeDistance_eq hN (d := d) (by rw [h1]; exact neg_pos.2 hd)]
  unfold FarBeyond
  simp only [h2, neg_lt_zero, not_exists, not_and, not_le]

theorem close_ghost {norm : Pt K → K} (hN : IsNorm norm) {a b c p : VId} {pa pb pc pp : Pt K} (ha : At m a pa) (hb : At m b pb)
    (hc : At m c pc) (hp : At m p pp) (ho : orient3d pa pb pc m.center < 0) {tol : K} {q : V4} (hq : q ∈ twelve (a, b, c, GHOST)) :
    ∃ r, m.tetCloseToVertex norm tol q.1 q.2.1 q.2.2.1 q.2.2.2 p = some r ∧ (r = true ↔ ∀ n : Pt K, n.norm2 = 1 → n.dot (pb.sub pa) = 0 →
      n.dot (pc.sub pa) = 0 → 0 < n.dot (m.center.sub pa) → n.dot (pp.sub pa) < tol) := by
  rw [planeDistance_ghost hN ho]
  have hg : m.idxOri GHOST = some m.center := by simp [Mesh.idxOri]
  have g1 := ha.1
  have g2 := hb.1
  have g3 := hc.1
  have r1 := planeDistance_rot norm pa pb pc pp
  have r2 := (planeDistance_rot norm pb pc pa pp).trans r1
  simp only [twelve, List.mem_cons, List.not_mem_nil, or_false] at hq
  rcases hq with rfl | rfl | rfl | rfl | rfl | rfl | rfl | rfl | rfl | rfl | rfl | rfl <;>
  · refine ⟨_, by simp only [Mesh.tetCloseToVertex, idxOri_of_At ha, idxOri_of_At hb, idxOri_of_At hc, hg, idxOri_of_At hp,
      Option.bind_eq_bind, Option.bind_some]; rfl, ?_⟩
    simp [List.findIdx?_cons, g1, g2, g3, r1, r2]

/-- Points close to a point of the tet are close. -/
theorem not_far {a b c d p q : Pt K} {tol : K} (ht : 0 < tol) (hq : InClosedTet a b c d q) (hpq : (p.sub q).norm2 < tol * tol) :
    ¬ FarBeyond a b c d p tol := by
  rintro ⟨n, k1, k2, k3, k4, k5⟩
  obtain ⟨ka, kb, kc, kd, h1, h2, h3, h4, h5, h6⟩ := hq
  have e : n.dot (q.sub a) = kd * n.dot (d.sub a) := by
    rw [← h6]
    have : ka = 1 - kb - kc - kd := by linarith
    subst this
    simp only [Pt.dot, Pt.sub, comb, Pt.add, Pt.smul] at k2 k3 ⊢
    linear_combination kb * k2 + kc * k3
  have e2 : n.dot (q.sub a) ≤ 0 := by
    rw [e]
    exact mul_nonpos_of_nonneg_of_nonpos h4 k4.le
  have e3 : n.dot (p.sub a) = n.dot (p.sub q) + n.dot (q.sub a) := by
    simp only [Pt.dot, Pt.sub]; ring
  have e4 : tol ≤ n.dot (p.sub q) := by linarith
  -- Cauchy-Schwarz
  have e5 : n.dot (p.sub q) * n.dot (p.sub q) ≤ n.norm2 * (p.sub q).norm2 := by
    generalize p.sub q = w
    simp only [Pt.dot, Pt.norm2]
    nlinarith [sq_nonneg (n.x * w.y - n.y * w.x), sq_nonneg (n.y * w.z - n.z * w.y), sq_nonneg (n.z * w.x - n.x * w.z)]
  rw [k1, one_mul] at e5
  have := mul_le_mul e4 e4 ht.le (ht.le.trans e4)
  linarith

end Tet
