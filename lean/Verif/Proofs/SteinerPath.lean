import Verif.Proofs.SteinerSplit
import Verif.Proofs.General

/-!
# Recovering edges with Steiner points
-/

namespace Tet
open Spec Vec4

variable {K V T : Type} [Field K] [LinearOrder K] [IsStrictOrderedRing K] {m m1 m2 m' : Mesh (Pt K) V T}

/-! ### What is known about an intersection -/

/-- What the search computes for an element. -/
def Computed (m : Mesh (Pt K) V T) (v0 v1 : VId) (i : EdgeInter K) : Prop :=
  match i.other with
  | .tri (a, b, c) => HasTri m (a, b, c) ∧ ∃ x0 x1 x2, m.triEdgeBary a b c v0 v1 = some [x0, x1, x2, i.bary.1, i.bary.2] ∧
      Mesh.sameSign [x0, x1, x2, i.bary.1, i.bary.2] = true
  | .edge (a, b) => (∃ w, m.edge w = some (a, b)) ∧ m.orient a b v0 v1 = some 0 ∧
      ∃ x0 x1, m.edgeEdgeBary a b v0 v1 = some [x0, x1, i.bary.1, i.bary.2] ∧ Mesh.sameSign [x0, x1, i.bary.1, i.bary.2] = true

theorem triBarys_mem {v0 v1 : VId} : ∀ {ws : List Walker} {l stop}, m.triBarys v0 v1 ws = some (l, stop) → ∀ p ∈ l,
    ∃ a b c, m.tri p.1 = some (a, b, c) ∧ m.triEdgeBary a b c v0 v1 = some p.2
  | [], l, stop, h => by cases h; simp
  | w :: ws, l, stop, h => by
    simp only [Mesh.triBarys, Option.bind_eq_bind, Option.bind_eq_some_iff] at h
    obtain ⟨⟨a, b, c⟩, h1, h⟩ := h
    simp only at h
    split_ifs at h with hv
    · cases h; simp
    · obtain ⟨bary, h2, h⟩ := Option.bind_eq_some_iff.1 h
      obtain ⟨⟨rest, stop'⟩, h3, h4⟩ := Option.bind_eq_some_iff.1 h
      cases h4
      intro p hp
      rcases List.mem_cons.1 hp with rfl | hp
      · exact ⟨a, b, c, h1, h2⟩
      · exact triBarys_mem h3 p hp

theorem triEdgeBary_five {a b c v0 v1 : VId} {l : List K} (h : m.triEdgeBary a b c v0 v1 = some l) : ∃ x0 x1 x2 x3 x4, l = [x0, x1, x2, x3, x4] := by
  simp only [Mesh.triEdgeBary, Option.bind_eq_bind, Option.bind_eq_some_iff, Option.pure_def, Option.some.injEq] at h
  obtain ⟨x0, -, x1, -, x2, -, x3, -, x4, -, rfl⟩ := h
  exact ⟨_, _, _, _, _, rfl⟩

theorem edgeEdgeBary_four {a b v0 v1 : VId} {l : List K} (h : m.edgeEdgeBary a b v0 v1 = some l) : ∃ x0 x1 x2 x3, l = [x0, x1, x2, x3] := by
  simp only [Mesh.edgeEdgeBary, Option.bind_eq_bind, Option.bind_eq_some_iff, Option.pure_def] at h
  obtain ⟨x0, -, x1, -, x2, -, x3, -, h⟩ := h
  split_ifs at h <;> cases h <;> exact ⟨_, _, _, _, rfl⟩

theorem triRaw_computed {v0 v1 : VId} {ws : List Walker} {w i stop} (h : m.triRaw v0 v1 ws = some (some (w, i), stop)) : Computed m v0 v1 i := by
  simp only [Mesh.triRaw, Option.bind_eq_bind] at h
  obtain ⟨⟨l, stop'⟩, h1, h⟩ := Option.bind_eq_some_iff.1 h
  simp only at h
  cases hf : l.find? (fun p => Mesh.triFound stop' p.2) with
  | none => rw [hf] at h; cases h
  | some p =>
    rw [hf] at h
    obtain ⟨a, b, c, h2, h3⟩ := triBarys_mem h1 p (List.mem_of_find?_eq_some hf)
    have h4 := List.find?_some hf
    replace h4 := triFound_sameSign h4
    obtain ⟨w', bary⟩ := p
    simp only at h2 h3 h4 h
    obtain ⟨x0, x1, x2, x3, x4, rfl⟩ := triEdgeBary_five h3
    simp only [h2, Option.bind_some, List.getElem?_cons_succ, List.getElem?_cons_zero, Option.pure_def, Option.some.injEq, Prod.mk.injEq] at h
    obtain ⟨⟨rfl, rfl⟩, rfl⟩ := h
    exact ⟨⟨_, h2⟩, x0, x1, x2, h3, h4⟩

theorem edgeRaw_computed {v0 v1 : VId} : ∀ {ws : List Walker} {w i}, m.edgeRaw v0 v1 ws = some (some (w, i)) → Computed m v0 v1 i
  | [], w, i, h => by cases h
  | x :: ws, w, i, h => by
    simp only [Mesh.edgeRaw, Option.bind_eq_bind] at h
    obtain ⟨⟨a, b⟩, h1, h⟩ := Option.bind_eq_some_iff.1 h
    obtain ⟨o, h2, h⟩ := Option.bind_eq_some_iff.1 h
    by_cases ho : o = 0
    · subst ho
      simp only [ne_eq, not_true_eq_false, if_false] at h
      obtain ⟨bary, h3, h⟩ := Option.bind_eq_some_iff.1 h
      obtain ⟨x0, x1, x2, x3, rfl⟩ := edgeEdgeBary_four h3
      by_cases hs : Mesh.sameSign [x0, x1, x2, x3] = true
      · simp only [hs, if_true, Option.bind_some, List.getElem?_cons_succ, List.getElem?_cons_zero, Option.pure_def, Option.some.injEq, Prod.mk.injEq] at h
        obtain ⟨rfl, rfl⟩ := h
        exact ⟨⟨_, h1⟩, h2, x0, x1, h3, hs⟩
      · rw [if_neg hs] at h
        exact edgeRaw_computed h
    · simp only [ne_eq, ho, not_false_eq_true, if_true] at h
      exact edgeRaw_computed h

theorem triOrEdge_computed {v0 v1 : VId} {keep : Bool} {tris edges : List Walker} {w i} (h : m.triOrEdge v0 v1 keep tris edges = some (some (w, i))) :
    Computed m v0 v1 i := by
  simp only [Mesh.triOrEdge, Option.bind_eq_bind] at h
  obtain ⟨⟨r, stop⟩, h1, h⟩ := Option.bind_eq_some_iff.1 h
  simp only at h
  cases stop with
  | true =>
    cases keep with
    | false => cases h
    | true => cases h; exact triRaw_computed h1
  | false =>
    simp only [Bool.false_eq_true, if_false] at h
    cases r with
    | some x => cases h; exact triRaw_computed h1
    | none => exact edgeRaw_computed h

theorem nextInter_computed {fuel : Nat} {v0 v1 : VId} {prev : EdgeOrTri} {x : Walker × EdgeInter K} {w i}
    (h : m.nextInter fuel v0 v1 prev x = some (some (w, i))) : Computed m v0 v1 i := by
  unfold Mesh.nextInter at h
  split at h
  · obtain ⟨_, -, h⟩ := Option.bind_eq_some_iff.1 h
    exact triOrEdge_computed h
  · obtain ⟨_, -, h⟩ := Option.bind_eq_some_iff.1 h
    exact triOrEdge_computed h

theorem interLoop_computed {fuel : Nat} {v0 v1 : VId} : ∀ {steps : Nat} {prev : EdgeOrTri} {x : Option (Walker × EdgeInter K)} {l},
    (∀ w i, x = some (w, i) → Computed m v0 v1 i) → m.interLoop fuel v0 v1 steps prev x = some l → ∀ y ∈ l, Computed m v0 v1 y.2
  | 0, _, none, _, _, h => by cases h; simp
  | _ + 1, _, none, _, _, h => by cases h; simp
  | 0, _, some _, _, _, h => by cases h
  | steps + 1, prev, some x, l, hx, h => by
    simp only [Mesh.interLoop, Option.bind_eq_bind] at h
    obtain ⟨next, h1, h⟩ := Option.bind_eq_some_iff.1 h
    obtain ⟨rest, h2, h⟩ := Option.bind_eq_some_iff.1 h
    cases h
    intro y hy
    rcases List.mem_cons.1 hy with rfl | hy
    · exact hx y.1 y.2 rfl
    · exact interLoop_computed (fun w i hn => nextInter_computed (hn ▸ h1)) h2 y hy

theorem edgeIntersections_computed {fuel steps : Nat} {v0 v1 : VId} {l} (h : m.edgeIntersections fuel steps v0 v1 = some l) :
    ∀ y ∈ l, Computed m v0 v1 y.2 := by
  simp only [Mesh.edgeIntersections, Option.bind_eq_bind] at h
  obtain ⟨first, h1, h⟩ := Option.bind_eq_some_iff.1 h
  refine interLoop_computed (fun w i hn => ?_) h
  subst hn
  simp only [Mesh.firstInter, Option.bind_eq_bind] at h1
  obtain ⟨ws, -, h1⟩ := Option.bind_eq_some_iff.1 h1
  exact triOrEdge_computed h1

/-! ### The point of the intersection -/

theorem cramer3 (a b c d e : Vec4 K) (i : Fin 4) :
    det b c d e * a i + det c a d e * b i + det a b d e * c i = det a b c e * d i + det c b a d * e i := by
  fin_cases i <;> simp only [det, det3, Fin.zero_eta, Fin.mk_one, Fin.reduceFinMk, Fin.isValue] <;> ring

theorem cramer2 (a b c d e : Vec4 K) (h : det a b c d = 0) (i : Fin 4) :
    det c b d e * a i + det d a c e * b i = det b d a e * c i + det a c b e * d i := by
  have : det c b d e * a i + det d a c e * b i - (det b d a e * c i + det a c b e * d i) = det a b c d * e i := by
    fin_cases i <;> simp only [det, det3, Fin.zero_eta, Fin.mk_one, Fin.reduceFinMk, Fin.isValue] <;> ring
  rw [h] at this
  linear_combination this

theorem amid_of {C : List VId} {p : Pt K} {φ : VId → K} (hpos : ∀ v ∈ C, 0 < φ v) (hC : ∀ v ∈ C, Spec.Placed m v)
    (h : ∀ i, hom p i = (C.map fun v => φ v * homv m v i).sum) : Amid m C p := by
  have hq : ∀ v ∈ C, ∃ q, m.idxOri v = some q := fun v hv => idxOri_some (hC v hv)
  have hv : ∀ v ∈ C, ∀ i, φ v * homv m v i = Mesh.ghostSign [v] * φ v * hom ((m.idxOri v).getD ⟨0, 0, 0⟩) i := by
    intro v hv i
    obtain ⟨q, hq⟩ := hq v hv
    rw [homv_of hq, hq]
    simp only [Mesh.ghostSign, List.mem_singleton, Option.getD_some, Pi.smul_apply, smul_eq_mul, @eq_comm _ GHOST v]
    ring
  have hh : ∀ i, hom p i = (C.map fun v => Mesh.ghostSign [v] * φ v * hom ((m.idxOri v).getD ⟨0, 0, 0⟩) i).sum := by
    intro i
    rw [h i]
    exact congrArg List.sum (List.map_congr_left fun v hv' => hv v hv' i)
  refine ⟨φ, fun v => (m.idxOri v).getD ⟨0, 0, 0⟩, fun v hv => ⟨hpos v hv, ?_⟩, ?_, hh 0, hh 1, hh 2⟩
  · obtain ⟨q, hq⟩ := hq v hv
    simp [hq]
  · have := hh 3
    simp only [hom, Matrix.cons_val, mul_one] at this
    exact this.symm

/-- Weights of the same sign, divided by their sum. -/
theorem sameSign_div {l : List K} {x s : K} (h : Mesh.sameSign l = true) (hx : x ∈ l) {y z : K} (hy : y ∈ l) (hz : z ∈ l) (hs : s = y + z) : 0 < x / s := by
  simp only [Mesh.sameSign, Bool.or_eq_true, List.all_eq_true, decide_eq_true_eq] at h
  rcases h with h | h
  · exact div_pos (h x hx) (by rw [hs]; exact add_pos (h y hy) (h z hz))
  · exact div_pos_of_neg_of_neg (h x hx) (by rw [hs]; exact add_neg (h y hy) (h z hz))

theorem point_on {p0 p1 : Pt K} {i : EdgeInter K} {l : List K} (h : Mesh.sameSign l = true) (h1 : i.bary.1 ∈ l) (h2 : i.bary.2 ∈ l) :
    ∃ t, 0 < t ∧ t < 1 ∧ i.point p0 p1 = along p0 p1 t ∧ ∀ j, hom (i.point p0 p1) j * (i.bary.1 + i.bary.2) = i.bary.1 * hom p0 j + i.bary.2 * hom p1 j := by
  have k1 := sameSign_div h h1 h1 h2 rfl
  have k2 := sameSign_div h h2 h1 h2 rfl
  have hne : i.bary.1 + i.bary.2 ≠ 0 := by
    intro h0
    rw [h0, div_zero] at k1
    exact lt_irrefl _ k1
  have hsum : i.bary.1 / (i.bary.1 + i.bary.2) + i.bary.2 / (i.bary.1 + i.bary.2) = 1 := by
    rw [← add_div, div_self hne]
  refine ⟨i.bary.2 / (i.bary.1 + i.bary.2), k2, by linarith, ?_, ?_⟩
  · simp only [EdgeInter.point, along, Pt.mk.injEq]
    refine ⟨?_, ?_, ?_⟩ <;> ring
  · have aux : ∀ x y : K, (x + (y - x) * i.bary.2 / (i.bary.1 + i.bary.2)) * (i.bary.1 + i.bary.2) = i.bary.1 * x + i.bary.2 * y := by
      intro x y
      rw [add_mul, div_mul_cancel₀ _ hne]
      ring
    intro j
    match j with
    | 0 => exact aux _ _
    | 1 => exact aux _ _
    | 2 => exact aux _ _
    | 3 => change 1 * (i.bary.1 + i.bary.2) = i.bary.1 * 1 + i.bary.2 * 1; ring

theorem det_ghost {a b c : VId} {pa pb pc p : Pt K} (ha : m.idxOri a = some pa) (hb : m.idxOri b = some pb) (hc : m.idxOri c = some pc)
    {vs : List VId} (hvs : ∀ v, v ∈ vs ↔ v = a ∨ v = b ∨ v = c) (h1 : ¬ (a = GHOST ∧ b = GHOST)) (h2 : ¬ (a = GHOST ∧ c = GHOST))
    (h3 : ¬ (b = GHOST ∧ c = GHOST)) :
    Mesh.ghostSign vs * orient3d pa pb pc p = det (homv m a) (homv m b) (homv m c) (hom p) := by
  have e : hom p = (1 : K) • hom p := by rw [one_smul]
  rw [homv_of ha, homv_of hb, homv_of hc, e, det_smul4, det_hom, Mesh.ghostSign]
  simp only [hvs, @eq_comm _ GHOST]
  by_cases k1 : a = GHOST <;> by_cases k2 : b = GHOST <;> by_cases k3 : c = GHOST <;> simp [k1, k2, k3] at h1 h2 h3 ⊢

theorem Computed.amid (hm : Consistent m) {v0 v1 : VId} {p0 p1 : Pt K} (h0 : At m v0 p0) (h1 : At m v1 p1) {i : EdgeInter K}
    (h : Computed m v0 v1 i) : Amid m (corners i.other) (i.point p0 p1) ∧ ∃ t, 0 < t ∧ t < 1 ∧ i.point p0 p1 = along p0 p1 t := by
  obtain ⟨g, b1, b2⟩ := i
  unfold Computed at h
  rcases g with ⟨a, b⟩ | ⟨a, b, c⟩
  · obtain ⟨⟨w, hw⟩, k1, x0, x1, k2, k3⟩ := h
    simp only at k2 k3
    obtain ⟨t, t1, t2, t3, t4⟩ := point_on (p0 := p0) (p1 := p1) (i := ⟨.edge (a, b), b1, b2⟩) k3 (by simp) (by simp)
    refine ⟨?_, t, t1, t2, t3⟩
    have hab : a ≠ b := edge_ne hm.toT hw
    obtain ⟨c, d, hq⟩ := edge_tet4 hw
    have hpa : Spec.Placed m a := placed_tet hm ⟨w, hq⟩ (by simp [list4])
    have hpb : Spec.Placed m b := placed_tet hm ⟨w, hq⟩ (by simp [list4])
    have hi0 : m.idxOri v0 = some p0 := by
      obtain ⟨g0, y, h2, h3⟩ := h0
      simp [Mesh.idxOri, g0, Mesh.idx, h2, h3]
    have hi1 : m.idxOri v1 = some p1 := by
      obtain ⟨g0, y, h2, h3⟩ := h1
      simp [Mesh.idxOri, g0, Mesh.idx, h2, h3]
    obtain ⟨pa, ha⟩ := idxOri_some hpa
    obtain ⟨pb, hb⟩ := idxOri_some hpb
    have hg0 := h0.1
    have hg1 := h1.1
    have hgab : ¬ (a = GHOST ∧ b = GHOST) := fun h => hab (h.1.trans h.2.symm)
    simp only [Mesh.edgeEdgeBary, ha, hb, hi0, hi1, Option.bind_eq_bind, Option.bind_some, Option.pure_def] at k2
    split_ifs at k2 with hcr
    · simp only [Option.some.injEq, List.cons.injEq, and_true] at k2
      obtain ⟨rfl, rfl, rfl, rfl⟩ := k2
      simp [Mesh.sameSign] at k3
    · generalize p0.add (crossEdges pa pb p0 p1) = p4 at k2
      simp only [Option.some.injEq, List.cons.injEq, and_true] at k2
      obtain ⟨e0, e1, e2, e3⟩ := k2
      rw [det_ghost hi0 hb hi1 (by simp; tauto) (by tauto) (by tauto) (by tauto)] at e0
      rw [det_ghost hi1 ha hi0 (by simp; tauto) (by tauto) (by tauto) (by tauto)] at e1
      rw [det_ghost hb hi1 ha (by simp; tauto) (by tauto) (by tauto) (by tauto)] at e2
      rw [det_ghost ha hi0 hb (by simp; tauto) (by tauto) (by tauto) (by tauto)] at e3
      have hD : det (homv m a) (homv m b) (homv m v0) (homv m v1) = 0 := orient_D k1
      have hc := cramer2 _ _ _ _ (hom p4) hD
      rw [e0, e1, e2, e3, h0.homv, h1.homv] at hc
      have hne : b1 + b2 ≠ 0 := by
        have := sameSign_div k3 (x := b1) (by simp) (y := b1) (z := b2) (by simp) (by simp) rfl
        intro h
        rw [h, div_zero] at this
        exact lt_irrefl _ this
      refine amid_of (φ := fun v => if v = a then x0 / (b1 + b2) else x1 / (b1 + b2)) ?_ ?_ ?_
      · intro v hv
        split_ifs
        · exact sameSign_div k3 (by simp) (y := b1) (z := b2) (by simp) (by simp) rfl
        · exact sameSign_div k3 (by simp) (y := b1) (z := b2) (by simp) (by simp) rfl
      · intro v hv
        simp only [corners, List.mem_cons, List.not_mem_nil, or_false] at hv
        rcases hv with rfl | rfl
        · exact hpa
        · exact hpb
      · intro j
        have k4 := t4 j
        simp only at k4
        simp only [corners, List.map_cons, List.map_nil, List.sum_cons, List.sum_nil, if_true, if_neg hab.symm, add_zero]
        refine mul_right_cancel₀ hne ?_
        rw [k4, ← hc j, add_mul, mul_right_comm, mul_right_comm (x1 / (b1 + b2)), div_mul_cancel₀ _ hne, div_mul_cancel₀ _ hne]
  · obtain ⟨⟨w, hw⟩, x0, x1, x2, k2, k3⟩ := h
    simp only at k2 k3
    obtain ⟨t, t1, t2, t3, t4⟩ := point_on (p0 := p0) (p1 := p1) (i := ⟨.tri (a, b, c), b1, b2⟩) k3 (by simp) (by simp)
    refine ⟨?_, t, t1, t2, t3⟩
    obtain ⟨d, hq⟩ := tri_tet4 hw
    have hn := hm.distinct _ _ _ _ _ hq
    simp only [List.nodup_cons, List.mem_cons, List.not_mem_nil, or_false, not_or] at hn
    simp only [Mesh.triEdgeBary, Option.bind_eq_bind, Option.bind_eq_some_iff, Option.pure_def, Option.some.injEq, List.cons.injEq, and_true] at k2
    obtain ⟨y0, e0, y1, e1, y2, e2, y3, e3, y4, e4, rfl, rfl, rfl, rfl, rfl⟩ := k2
    have hc := cramer3 (homv m a) (homv m b) (homv m c) (homv m v0) (homv m v1)
    have f0 : det (homv m b) (homv m c) (homv m v0) (homv m v1) = y0 := orient_D e0
    have f1 : det (homv m c) (homv m a) (homv m v0) (homv m v1) = y1 := orient_D e1
    have f2 : det (homv m a) (homv m b) (homv m v0) (homv m v1) = y2 := orient_D e2
    have f3 : det (homv m a) (homv m b) (homv m c) (homv m v1) = y3 := orient_D e3
    have f4 : det (homv m c) (homv m b) (homv m a) (homv m v0) = y4 := orient_D e4
    rw [f0, f1, f2, f3, f4, h0.homv, h1.homv] at hc
    have hne : y3 + y4 ≠ 0 := by
      have := sameSign_div k3 (x := y3) (by simp) (y := y3) (z := y4) (by simp) (by simp) rfl
      intro h
      rw [h, div_zero] at this
      exact lt_irrefl _ this
    refine amid_of (φ := fun v => if v = a then y0 / (y3 + y4) else if v = b then y1 / (y3 + y4) else y2 / (y3 + y4)) ?_ ?_ ?_
    · intro v hv
      split_ifs <;> exact sameSign_div k3 (by simp) (y := y3) (z := y4) (by simp) (by simp) rfl
    · intro v hv
      simp only [corners, List.mem_cons, List.not_mem_nil, or_false] at hv
      exact placed_tet hm ⟨w, hq⟩ (by simp [list4]; tauto)
    · intro j
      have k4 := t4 j
      simp only at k4
      simp only [corners, List.map_cons, List.map_nil, List.sum_cons, List.sum_nil, if_true, if_neg (Ne.symm hn.1.1), if_neg (Ne.symm hn.1.2.1),
        if_neg (Ne.symm hn.2.1.1), add_zero]
      refine mul_right_cancel₀ hne ?_
      rw [k4, ← hc j, add_mul, add_mul, mul_right_comm, mul_right_comm (y1 / (y3 + y4)), mul_right_comm (y2 / (y3 + y4)),
        div_mul_cancel₀ _ hne, div_mul_cancel₀ _ hne, div_mul_cancel₀ _ hne, add_assoc]

theorem idx_of_At {v : VId} {p : Pt K} (h : At m v p) : m.idx v = some p := by
  obtain ⟨-, y, h2, h3⟩ := h
  simp [Mesh.idx, h2, h3]

theorem edgeMid_does (hm : Consistent m) (steps : Nat) {v0 v1 : VId} {p0 p1 : Pt K} (h0 : At m v0 p0) (h1 : At m v1 p1) :
    Does (fun fuel => m.edgeMidIntersection fuel steps v0 v1) (MidFound m steps v0 v1 p0 p1) := by
  refine Does.congr (f := fun fuel => (m.edgeIntersections fuel steps v0 v1).bind fun inters => some
    ((minByKey (fun a b => decide (a ≤ b)) (inters.map fun x => (x.2, |x.2.bary.1 - x.2.bary.2|))).map fun x => (x.other, x.point p0 p1))) ?_ ?_
  · refine (edgeIntersections_full hm steps v0 v1).bind ?_ ?_
    · intro l hl hs
      refine does_const ?_
      rcases minByKey_spec (le := fun a b : K => decide (a ≤ b)) (fun a b => by simpa using le_total a b)
        (fun a b c h1 h2 => by simp only [decide_eq_true_eq] at h1 h2 ⊢; exact h1.trans h2)
        (l.map fun x => (x.2, |x.2.bary.1 - x.2.bary.2|)) with ⟨k1, k2⟩ | ⟨x, k1, k2, -⟩
      · rw [k2]
        rw [List.map_eq_nil_iff] at k1
        subst k1
        exact hl
      · rw [k2]
        obtain ⟨y, hy, rfl⟩ := List.mem_map.1 k1
        obtain ⟨N, hN⟩ := hs
        obtain ⟨j1, j2⟩ := (edgeIntersections_computed (hN N le_rfl) y hy).amid hm h0 h1
        exact ⟨⟨_, hl, List.mem_map.2 ⟨y, hy, rfl⟩⟩, j1, j2⟩
    · exact fun h _ => h
  · intro n
    simp only [Mesh.edgeMidIntersection, idx_of_At h0, idx_of_At h1, Option.bind_eq_bind, Option.bind_some]
    rfl

theorem edgePoints_does (hm : Consistent m) (steps : Nat) {v0 v1 : VId} {p0 p1 : Pt K} (h0 : At m v0 p0) (h1 : At m v1 p1) :
    Does (fun fuel => m.edgePoints fuel steps v0 v1) (PointsFound m steps v0 v1 p0 p1) := by
  refine Does.congr (f := fun fuel => (m.edgeIntersections fuel steps v0 v1).bind fun inters => some
    (inters.map fun x => (x.2.other, x.2.point p0 p1))) ?_ ?_
  · refine (edgeIntersections_full hm steps v0 v1).bind ?_ fun h _ => ⟨h, by simp⟩
    intro l hl ⟨N, hN⟩
    refine does_const ⟨?_, ?_⟩
    · simpa [Function.comp_def] using hl
    · rintro l' h x hx
      cases h
      obtain ⟨y, hy, rfl⟩ := List.mem_map.1 hx
      exact (edgeIntersections_computed (hN N le_rfl) y hy).amid hm h0 h1
  · intro n
    simp only [Mesh.edgePoints, idx_of_At h0, idx_of_At h1, Option.bind_eq_bind, Option.bind_some]
    rfl

/-- In general position, the points are in the order of the segment. -/
theorem edgePoints_order (hm : Consistent m) (ht : Tiles m) (hf : NoFlat m) {v0 v1 : VId} {p0 p1 : Pt K} (h0 : At m v0 p0) (h1 : At m v1 p1)
    (i0 : InMesh m v0) (i1 : InMesh m v1) (hv : v0 ≠ v1) {n steps : Nat} (hn : m.numTets = some n) (hsteps : 12 * n ≤ steps) :
    ∃ l : List (V3 × K), Settles (fun fuel => m.edgePoints fuel steps v0 v1) (some (l.map fun x => (.tri x.1, along p0 p1 x.2))) ∧
      InTheWay m v0 v1 (l.map Prod.fst) ∧ (0 :: l.map Prod.snd ++ [1]).IsChain (· < ·) ∧ ∀ x ∈ l, Amid m (corners (.tri x.1)) (along p0 p1 x.2) := by
  obtain ⟨l, ⟨N, k1⟩, k2, -⟩ := search_all hm ht hf ⟨i0, h0.1⟩ ⟨i1, h1.1⟩ hv hn hsteps
  obtain ⟨r, ⟨N', k3⟩, -⟩ := edgeIntersections_full hm steps v0 v1
  obtain ⟨xs, hxs, hother⟩ : ∃ xs, r = some xs ∧ xs.map (fun x => x.2.other) = l.map .tri := by
    have e := k1 (max N N') (le_max_left _ _)
    simp only [k3 (max N N') (le_max_right _ _)] at e
    exact Option.map_eq_some_iff.1 e
  subst hxs
  let τ : EdgeInter K → K := fun i => i.bary.2 / (i.bary.1 + i.bary.2)
  have hcomp := edgeIntersections_computed (k3 N' le_rfl)
  have htri : ∀ x ∈ xs, ∃ t, x.2.other = .tri t := by
    intro x hx
    have : x.2.other ∈ l.map EdgeOrTri.tri := hother ▸ List.mem_map.2 ⟨x, hx, rfl⟩
    obtain ⟨t, -, h⟩ := List.mem_map.1 this
    exact ⟨t, h.symm⟩
  -- the parameter is that of the plane
  have hτ : ∀ x ∈ xs, ∀ t, x.2.other = .tri t → 0 < τ x.2 ∧ τ x.2 < 1 ∧ x.2.point p0 p1 = along p0 p1 (τ x.2) ∧ ∀ s, MeetsAt m v0 v1 t s → s = τ x.2 := by
    rintro x hx ⟨a, b, c⟩ hxt
    have hc := hcomp x hx
    unfold Computed at hc
    rw [hxt] at hc
    obtain ⟨-, x0, x1, x2, e, hs⟩ := hc
    have j1 := sameSign_div hs (x := x.2.bary.1) (by simp) (y := x.2.bary.1) (z := x.2.bary.2) (by simp) (by simp) rfl
    have j2 := sameSign_div hs (x := x.2.bary.2) (by simp) (y := x.2.bary.1) (z := x.2.bary.2) (by simp) (by simp) rfl
    have hne : x.2.bary.1 + x.2.bary.2 ≠ 0 := by
      intro h
      rw [h, div_zero] at j1
      exact lt_irrefl _ j1
    have hsum : x.2.bary.1 / (x.2.bary.1 + x.2.bary.2) + x.2.bary.2 / (x.2.bary.1 + x.2.bary.2) = 1 := by
      rw [← add_div, div_self hne]
    refine ⟨j2, by simp only [τ]; linarith, ?_, ?_⟩
    · simp only [EdgeInter.point, along, Pt.mk.injEq, τ]
      refine ⟨?_, ?_, ?_⟩ <;> ring
    · rintro s ⟨u, y, e1, e2, e3, e4⟩
      simp only [Mesh.triEdgeBary, Option.bind_eq_bind, Option.bind_eq_some_iff, Option.pure_def, Option.some.injEq, List.cons.injEq, and_true] at e
      obtain ⟨y0, -, y1, -, y2, -, y3, f3, y4, f4, -, -, -, rfl', rfl''⟩ := e
      simp only at e1 e2
      have g3 : y = y3 := by rw [e2] at f3; exact Option.some.inj f3
      have g4 : y4 = -u := by
        have w1 := orient_D f4
        have w2 := orient_D e1
        rw [← w1, ← w2]
        simp only [D, det, det3]
        ring
      simp only [τ]
      rw [eq_div_iff hne, ← rfl', ← rfl'', g4, ← g3]
      linear_combination e4
  refine ⟨xs.map fun x => (match x.2.other with | .tri t => t | .edge _ => (0, 0, 0), τ x.2), ?_, ?_, ?_, ?_⟩
  · refine ⟨N', fun n hn => ?_⟩
    simp only [Mesh.edgePoints, idx_of_At h0, idx_of_At h1, Option.bind_eq_bind, Option.bind_some, k3 n hn, Option.pure_def, List.map_map]
    refine congrArg some (List.map_congr_left fun x hx => ?_)
    obtain ⟨t, ht⟩ := htri x hx
    simp only [Function.comp_apply, ht, (hτ x hx t ht).2.2.1]
  · have : (xs.map fun x => ((match x.2.other with | .tri t => t | .edge _ => (0, 0, 0) : V3), τ x.2)).map (·.1) = l := by
      rw [List.map_map]
      have : xs.map (fun x => (match x.2.other with | .tri t => t | .edge _ => (0, 0, 0) : V3)) =
          (xs.map fun x => x.2.other).map (fun g => (match g with | .tri t => t | .edge _ => (0, 0, 0) : V3)) := by
        rw [List.map_map]; rfl
      rw [show ((fun x => x.1) ∘ fun x : Walker × EdgeInter K => ((match x.2.other with | .tri t => t | .edge _ => (0, 0, 0) : V3), τ x.2)) =
        fun x => (match x.2.other with | .tri t => t | .edge _ => (0, 0, 0) : V3) from rfl, this, hother, List.map_map]
      simp [Function.comp_def]
    rw [this]
    exact k2
  · have hp : xs.Pairwise fun x y => τ x.2 < τ y.2 := by
      have h2 : (xs.map fun x => x.2.other).Pairwise fun g g' => ∀ t t', g = .tri t → g' = .tri t' →
          ∃ s s', MeetsAt m v0 v1 t s ∧ MeetsAt m v0 v1 t' s' ∧ s < s' := by
        rw [hother, List.pairwise_map]
        refine k2.order.imp ?_
        rintro t t' h _ _ h1 h2
        cases h1; cases h2
        exact h
      rw [List.pairwise_map] at h2
      refine h2.imp_of_mem fun {x y} hx hy h => ?_
      obtain ⟨t, ht⟩ := htri x hx
      obtain ⟨t', ht'⟩ := htri y hy
      obtain ⟨s, s', q1, q2, q3⟩ := h t t' ht ht'
      rw [(hτ x hx t ht).2.2.2 s q1, (hτ y hy t' ht').2.2.2 s' q2] at q3
      exact q3
    rw [List.isChain_iff_pairwise, List.map_map]
    simp only [List.cons_append, List.pairwise_cons, List.pairwise_append, List.mem_append, List.mem_map, List.mem_singleton, Function.comp_apply]
    refine ⟨?_, ?_, by simp, ?_⟩
    · rintro a (⟨x, hx, rfl⟩ | rfl)
      · obtain ⟨t, ht⟩ := htri x hx
        exact (hτ x hx t ht).1
      · exact zero_lt_one
    · rw [List.pairwise_map]
      exact hp
    · rintro a ⟨x, hx, rfl⟩ b rfl
      obtain ⟨t, ht⟩ := htri x hx
      exact (hτ x hx t ht).2.1
  · intro y hy
    obtain ⟨x, hx, rfl⟩ := List.mem_map.1 hy
    obtain ⟨t, ht⟩ := htri x hx
    have := ((hcomp x hx).amid hm h0 h1).1
    rw [(hτ x hx t ht).2.2.1, ht] at this
    simpa only [ht] using this

/-! ### Chains of pieces -/

theorem pairs_append {α : Type} (s : α) : ∀ (l1 l2 : List α), Spec.pairs (l1 ++ s :: l2) = Spec.pairs (l1 ++ [s]) ++ Spec.pairs (s :: l2)
  | [], l2 => by simp [Spec.pairs]
  | [a], l2 => by simp [Spec.pairs]
  | a :: b :: l1, l2 => by
    have := pairs_append s (b :: l1) l2
    simp only [List.cons_append, Spec.pairs] at this ⊢
    rw [this]

theorem along_left (p0 p1 : Pt K) (t u : K) : along p0 (along p0 p1 t) u = along p0 p1 (u * t) := by
  simp only [along, Pt.mk.injEq]
  refine ⟨?_, ?_, ?_⟩ <;> ring

theorem along_right (p0 p1 : Pt K) (t u : K) : along (along p0 p1 t) p1 u = along p0 p1 (t + u * (1 - t)) := by
  simp only [along, Pt.mk.injEq]
  refine ⟨?_, ?_, ?_⟩ <;> ring

theorem at_payload {v : VId} {p : Pt K} (h : (m'.vertices.get v).map (fun y => (y.position, y.value)) = (m.vertices.get v).map fun y => (y.position, y.value))
    (hv : At m v p) : At m' v p := by
  obtain ⟨h1, y, h2, h3⟩ := hv
  rw [h2] at h
  obtain ⟨z, h4, h5⟩ := Option.map_eq_some_iff.1 h
  simp only [Prod.mk.injEq] at h5
  exact ⟨h1, z, h4, h5.1.trans h3⟩

theorem value_payload {v : VId} {x : V} (h : (m'.vertices.get v).map (fun y => (y.position, y.value)) = (m.vertices.get v).map fun y => (y.position, y.value))
    (hv : ∃ y, m.vertices.get v = some y ∧ y.value = x) : ∃ y, m'.vertices.get v = some y ∧ y.value = x := by
  obtain ⟨y, h2, h3⟩ := hv
  rw [h2] at h
  obtain ⟨z, h4, h5⟩ := Option.map_eq_some_iff.1 h
  simp only [Prod.mk.injEq] at h5
  exact ⟨z, h4, h5.2.trans h3⟩

theorem none_payload {v : VId} (h : (m'.vertices.get v).map (fun y => (y.position, y.value)) = (m.vertices.get v).map fun y => (y.position, y.value))
    (hv : m'.vertices.get v = none) : m.vertices.get v = none := by
  rw [hv] at h
  cases h' : m.vertices.get v with
  | none => rfl
  | some y => rw [h'] at h; cases h

/-- Locking an edge that is there. -/
theorem lock_chain (hs : Sound m) {w : Walker} {v0 v1 : VId} (hw : m.edge w = some (v0, v1)) (p0 p1 : Pt K) (x : V) :
    ∃ m', m.lockEdgeAt w = some m' ∧ Chained m m' v0 v1 p0 p1 x [] := by
  obtain ⟨m', h1, h2, h3, h4, h5, h6⟩ := lockEdgeAt_ok hs.consistent.toT hw
  have hlock : ∃ e, m' = { m with edges := m.edges.modify e fun ue => { ue with locked := true } } := by
    simp only [Mesh.lockEdgeAt, Option.bind_eq_bind] at h1
    obtain ⟨e, -, h1⟩ := Option.bind_eq_some_iff.1 h1
    split_ifs at h1
    cases h1
    exact ⟨e, rfl⟩
  refine ⟨m', h1, ⟨h2, hs.tiles.of_same hs.consistent.toT h2.toT h3 h4, ?_, ?_⟩, by simp, by simp, ⟨[], .nil, by simp⟩, by simp, ?_, ?_, h3.2.1, ?_, ?_, ?_⟩
  · obtain ⟨e, rfl⟩ := hlock
    refine ⟨hs.tidy.tets, ?_, hs.tidy.vertices, hs.tidy.ghost⟩
    intro e' ue he
    simp only [IdMap.get_modify] at he
    split_ifs at he with hee
    · obtain ⟨ue', h7, rfl⟩ := Option.map_eq_some_iff.1 he
      have := hs.tidy.edges _ _ h7
      exact this
    · exact hs.tidy.edges _ _ he
  · obtain ⟨e, rfl⟩ := hlock
    exact hs.unmarked
  · intro v _
    have := congrArg (Option.map fun y : Pt K × V × _ => (y.1, y.2.1)) (h3.1 v)
    simpa [Option.map_map, Function.comp_def] using this
  · obtain ⟨e, rfl⟩ := hlock
    intro v
    simp only [List.not_mem_nil, false_or]
    exact Iff.rfl
  · intro a b
    simp only [List.cons_append, List.nil_append, Spec.pairs]
    constructor
    · exact fun h => h5.edge a b h
    · rintro (h | h | h)
      · exact h5.edgeKept a b h
      · simp only [List.mem_singleton, Prod.mk.injEq] at h
        obtain ⟨rfl, rfl⟩ := h
        exact h6
      · simp only [List.mem_singleton, Prod.mk.injEq] at h
        obtain ⟨rfl, rfl⟩ := h
        exact lockedEdge_comm h6
  · intro t h
    rcases h5.tri t h with h | ⟨t', h, -⟩
    · exact h
    · cases h
  · exact fun a b c h _ _ _ => h5.triKept _ h

theorem IsChain.scale {f : K → K} (hf : ∀ a b, a < b → f a < f b) {l : List K} (h : l.IsChain (· < ·)) : (l.map f).IsChain (· < ·) := by
  rw [List.isChain_map]
  exact h.imp hf

theorem forall₂_mem {α β : Type} {R : α → β → Prop} {l : List α} {ts : List β} (h : List.Forall₂ R l ts) :
    List.Forall₂ (fun a b => a ∈ l ∧ R a b) l ts := by
  induction h with
  | nil => exact .nil
  | cons h _ ih => exact .cons ⟨List.mem_cons_self, h⟩ (ih.imp fun _ _ h => ⟨List.mem_cons_of_mem _ h.1, h.2⟩)

/-- Two chains of pieces after splitting an element. -/
theorem join_chain {g : EdgeOrTri} {v0 v1 s : VId} {p0 p1 : Pt K} {x : V} {t : K} {l1 l2 : List VId} (ht0 : 0 < t) (ht1 : t < 1)
    (hsp : Split m m1 g s (along p0 p1 t) x) (h1 : Chained m1 m2 v0 s p0 (along p0 p1 t) x l1)
    (h2 : Chained m2 m' s v1 (along p0 p1 t) p1 x l2) : Chained m m' v0 v1 p0 p1 x (l1 ++ s :: l2) := by
  have hs1 : m1.vertices.get s ≠ none := by
    obtain ⟨y, h, -⟩ := hsp.new.2
    rw [h]; simp
  have hsl1 : s ∉ l1 := fun h => hs1 (h1.fresh s h)
  have hs2 : m2.vertices.get s ≠ none := fun h => hs1 (none_payload (h1.others s hsl1) h)
  have hsl2 : s ∉ l2 := fun h => hs2 (h2.fresh s h)
  have hl1 : ∀ v ∈ l1, v ∉ l2 := by
    intro v hv hv2
    obtain ⟨y, hy, -⟩ := h1.value v hv
    rw [h2.fresh v hv2] at hy
    cases hy
  refine ⟨h2.sound, ?_, ?_, ?_, ?_, ?_, ?_, (h2.center.trans h1.center).trans hsp.center, ?_, ?_, ?_⟩
  · intro v hv
    rcases List.mem_append.1 hv with h | h
    · refine none_payload (hsp.others v ?_) (h1.fresh v h)
      rintro rfl
      exact hsl1 h
    · rcases List.mem_cons.1 h with rfl | h3
      · exact hsp.fresh
      · refine none_payload (hsp.others v ?_) (none_payload (h1.others v fun h' => hl1 v h' h3) (h2.fresh v h3))
        rintro rfl
        exact hsl2 h3
  · rw [List.nodup_append]
    refine ⟨h1.nodup, List.nodup_cons.2 ⟨hsl2, h2.nodup⟩, ?_⟩
    intro a ha b hb hab
    subst hab
    rcases List.mem_cons.1 hb with rfl | hb
    · exact hsl1 ha
    · exact hl1 a ha hb
  · obtain ⟨ts1, a1, a2⟩ := h1.on
    obtain ⟨ts2, b1, b2⟩ := h2.on
    refine ⟨ts1.map (· * t) ++ t :: ts2.map (fun u => t + u * (1 - t)), ?_, ?_⟩
    · refine List.rel_append ?_ (.cons ?_ ?_)
      · rw [List.forall₂_map_right_iff]
        refine (forall₂_mem a1).imp ?_
        rintro v u ⟨hv, h⟩
        rw [← along_left]
        exact at_payload (h2.others v (hl1 v hv)) h
      · exact at_payload (h2.others s hsl2) (at_payload (h1.others s hsl1) hsp.new.1)
      · rw [List.forall₂_map_right_iff]
        refine b1.imp fun v u h => ?_
        rwa [← along_right]
    · have c1 := IsChain.scale (f := (· * t)) (fun a b h => mul_lt_mul_of_pos_right h ht0) a2
      have c2 := IsChain.scale (f := fun u => t + u * (1 - t)) (fun a b h => by
        have := mul_lt_mul_of_pos_right h (sub_pos.2 ht1)
        linarith) b2
      simp only [List.cons_append, List.map_cons, List.map_append, List.map_nil, zero_mul, one_mul, add_zero, add_sub_cancel] at c1 c2
      have : (0 :: (ts1.map (· * t) ++ t :: ts2.map fun u => t + u * (1 - t)) ++ [1]) =
          (0 :: ts1.map (· * t)) ++ t :: (ts2.map (fun u => t + u * (1 - t)) ++ [1]) := by simp
      rw [this, List.isChain_split]
      exact ⟨c1, c2⟩
  · intro v hv
    rcases List.mem_append.1 hv with h | h
    · exact value_payload (h2.others v (hl1 v h)) (h1.value v h)
    · rcases List.mem_cons.1 h with rfl | h
      · exact value_payload (h2.others v hsl2) (value_payload (h1.others v hsl1) hsp.new.2)
      · exact h2.value v h
  · intro v hv
    simp only [List.mem_append, List.mem_cons, not_or] at hv
    exact (h2.others v hv.2.2).trans ((h1.others v hv.1).trans (hsp.others v hv.2.1))
  · intro v
    rw [h2.inMesh, h1.inMesh, hsp.inMesh]
    simp only [List.mem_append, List.mem_cons]
    tauto
  · intro a b
    rw [h2.edges, h1.edges, hsp.edges]
    have : v0 :: (l1 ++ s :: l2) ++ [v1] = (v0 :: l1) ++ s :: (l2 ++ [v1]) := by simp
    rw [this, pairs_append s (v0 :: l1) (l2 ++ [v1])]
    simp only [List.mem_append, List.cons_append]
    tauto
  · exact fun t h => hsp.tris t (h1.tris t (h2.tris t h))
  · intro a b c h e1 e2 e3
    have k := fun a b h => (hsp.edges a b).2 h
    have k' := fun a b h => (h1.edges a b).2 (.inl (k a b h))
    exact h2.kept a b c (h1.kept a b c (hsp.kept a b c h e1 e2 e3) (k _ _ e1) (k _ _ e2) (k _ _ e3)) (k' _ _ e1) (k' _ _ e2) (k' _ _ e3)

theorem crossed_present {v0 v1 : VId} {g : EdgeOrTri} (h : CrossedBy m v0 v1 g) : Present m g := by
  rcases g with ⟨a, b⟩ | ⟨a, b, c⟩ <;> exact h.1

theorem recoverSteiner_does (steps : Nat) : ∀ (depth : Nat) (m : Mesh (Pt K) V T), Sound m → ∀ {v0 v1 : VId} {p0 p1 : Pt K} {x : V}, At m v0 p0 →
    At m v1 p1 → (∃ y, m.vertices.get v0 = some y ∧ y.value = x) →
    Does (fun fuel => Mesh.recoverEdgeWithSteiner fuel steps depth (v0, v1) m) fun r => (r = none ∧ SteinerFails steps depth v0 v1 m) ∨
      ∃ m' l, r = some (m', l) ∧ Chained m m' v0 v1 p0 p1 x l
  | 0, m, _, _, _, _, _, _, _, _, _ => ⟨none, ⟨0, fun _ _ => rfl⟩, .inl ⟨rfl, .deep⟩⟩
  | depth + 1, m, hs, v0, v1, p0, p1, x, h0, h1, ⟨y0, hy0, hx⟩ => by
    refine Does.congr (f := fun fuel => (m.edgeMidIntersection fuel steps v0 v1).bind fun r => match r with
      | some (other, point) => (m.insertSteiner fuel v0 other point).bind fun ms =>
          (Mesh.recoverEdgeWithSteiner fuel steps depth (v0, ms.2) ms.1).bind fun r1 =>
            (Mesh.recoverEdgeWithSteiner fuel steps depth (ms.2, v1) r1.1).bind fun r2 => some (r2.1, r1.2 ++ ms.2 :: r2.2)
      | none => (m.walkerFromEdge fuel (v0, v1)).bind fun w => w.bind fun w => (m.lockEdgeAt w).bind fun m => some (m, [])) ?_ ?_
    · refine (edgeMid_does hs.consistent steps h0 h1).bind ?_ fun h _ => .inl ⟨rfl, .search h⟩
      rintro (_ | ⟨g, p⟩) hf -
      · refine (walkerFromEdge_does hs.consistent (v0, v1)).bind ?_ ?_
        · rintro (_ | w) hw -
          · exact does_const (.inl ⟨rfl, .lost hf (hw (hs.tiles.star hs.consistent _))⟩)
          · obtain ⟨m', k1, k2⟩ := lock_chain hs hw p0 p1 x
            simp only [Option.bind_some, k1]
            exact does_const (.inr ⟨m', [], rfl, k2⟩)
        · intro hn _
          refine .inl ⟨rfl, .lost hf fun he => hn ⟨?_, h0.1⟩⟩
          obtain ⟨c, d, hq⟩ := hs.consistent.toT.hasEdge_tet.1 he
          exact inMesh_of_hasTet hq 0
      · obtain ⟨⟨l, k1, k2⟩, k3, t, k4, k5, rfl⟩ := hf
        have hcr : CrossedBy m v0 v1 g := k1.1.crossed g k2
        refine (insert_split hs (crossed_present hcr) k3 hy0).bind ?_ ?_
        · rintro ⟨m1, s⟩ (⟨hr, -⟩ | ⟨m1', s', hr, -, hsp⟩) -
          · cases hr
          cases hr
          rw [hx] at hsp
          have hne : ∀ {v p}, At m v p → v ≠ s := by
            rintro v p ⟨-, y, h, -⟩ rfl
            rw [hsp.fresh] at h
            cases h
          have h0' := at_payload (hsp.others v0 (hne h0)) h0
          have h1' := at_payload (hsp.others v1 (hne h1)) h1
          refine (recoverSteiner_does steps depth m1 hsp.sound h0' hsp.new.1 (value_payload (hsp.others v0 (hne h0)) ⟨y0, hy0, hx⟩)).bind ?_ ?_
          · rintro ⟨m2, l1⟩ (⟨hr, -⟩ | ⟨m2', l1', hr, hc1⟩) -
            · cases hr
            cases hr
            have hn : ∀ {v p}, At m1 v p → v ∉ l1 := by
              rintro v p ⟨-, y, h, -⟩ hv
              rw [hc1.fresh v hv] at h
              cases h
            refine (recoverSteiner_does steps depth m2 hc1.sound (at_payload (hc1.others s (hn hsp.new.1)) hsp.new.1)
              (at_payload (hc1.others v1 (hn h1')) h1') (value_payload (hc1.others s (hn hsp.new.1)) hsp.new.2)).bind ?_ ?_
            · rintro ⟨m3, l2⟩ (⟨hr, -⟩ | ⟨m3', l2', hr, hc2⟩) -
              · cases hr
              cases hr
              exact does_const (.inr ⟨_, _, rfl, join_chain k4 k5 hsp hc1 hc2⟩)
            · rintro (⟨-, hf⟩ | ⟨_, _, hr, -⟩) -
              · exact .inl ⟨rfl, .right hcr hsp hc1 hf⟩
              · cases hr
          · rintro (⟨-, hf⟩ | ⟨_, _, hr, -⟩) -
            · exact .inl ⟨rfl, .left hcr hsp hf⟩
            · cases hr
        · rintro (⟨-, hu⟩ | ⟨_, _, hr, -⟩) -
          · exact .inl ⟨rfl, .blocked hcr hu⟩
          · cases hr
    · intro n
      simp only [Mesh.recoverEdgeWithSteiner, Option.bind_eq_bind]
      rfl

end Tet
