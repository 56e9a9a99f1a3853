import Verif.Proofs.Points

/-!
# Proofs about the time until a vertex comes upon the boundary of a ball
-/

namespace Tet
open Spec Vec4
variable {K V T : Type} [Field K] [LinearOrder K] [IsStrictOrderedRing K] {m : Mesh (Pt K) V T}

theorem touch_of {C : List VId} {p : Pt K} {φ : VId → K} (hpos : ∀ v ∈ C, 0 ≤ φ v) (hC : ∀ v ∈ C, Spec.Placed m v)
    (h : ∀ i, hom p i = (C.map fun v => φ v * homv m v i).sum) : Touches m C p := by
  have hq : ∀ v ∈ C, ∃ q, m.idxOri v = some q := fun v hv => idxOri_some (hC v hv)
  have hv : ∀ v ∈ C, ∀ i, φ v * homv m v i = Mesh.ghostSign [v] * φ v * hom ((m.idxOri v).getD ⟨0, 0, 0⟩) i := by
    intro v hv i
    obtain ⟨q, hq⟩ := hq v hv
    rw [homv_of hq, hq]
    simp only [Mesh.ghostSign, List.mem_singleton, Option.getD_some, Pi.smul_apply, smul_eq_mul, @eq_comm _ GHOST v]
    ring
  have hh : ∀ i, hom p i = (C.map fun v => Mesh.ghostSign [v] * φ v * hom ((m.idxOri v).getD ⟨0, 0, 0⟩) i).sum := by
    intro i
    rw [h i]
    exact congrArg List.sum (List.map_congr_left fun v hv' => hv v hv' i)
  refine ⟨φ, fun v => (m.idxOri v).getD ⟨0, 0, 0⟩, fun v hv => ⟨hpos v hv, ?_⟩, ?_, hh 0, hh 1, hh 2⟩
  · obtain ⟨q, hq⟩ := hq v hv
    simp [hq]
  · have := hh 3
    simp only [hom, Matrix.cons_val, mul_one] at this
    exact this.symm

theorem touch_elim {C : List VId} {p : Pt K} (h : Touches m C p) :
    ∃ φ : VId → K, (∀ v ∈ C, 0 ≤ φ v) ∧ ∀ i, hom p i = (C.map fun v => φ v * homv m v i).sum := by
  obtain ⟨w, q, h1, h2, h3, h4, h5⟩ := h
  refine ⟨w, fun v hv => (h1 v hv).1, ?_⟩
  have hv : ∀ v ∈ C, ∀ i, Mesh.ghostSign [v] * w v * hom (q v) i = w v * homv m v i := by
    intro v hv i
    rw [homv_of (h1 v hv).2]
    simp only [Mesh.ghostSign, List.mem_singleton, Pi.smul_apply, smul_eq_mul, @eq_comm _ GHOST v]
    ring
  have hh : ∀ i, hom p i = (C.map fun v => Mesh.ghostSign [v] * w v * hom (q v) i).sum := by
    intro i
    match i with
    | 0 => exact h3
    | 1 => exact h4
    | 2 => exact h5
    | 3 =>
      change (1 : K) = _
      rw [← h2]
      exact congrArg List.sum (List.map_congr_left fun v _ => (mul_one _).symm)
  intro i
  rw [hh i]
  exact congrArg List.sum (List.map_congr_left fun v hv' => hv v hv' i)

theorem Spec.Touches.perm {C C' : List VId} {p : Pt K} (h : Touches m C p) (hp : C.Perm C') : Touches m C' p := by
  obtain ⟨w, q, h1, h2, h3, h4, h5⟩ := h
  exact ⟨w, q, fun v hv => h1 v (hp.mem_iff.2 hv), h2 ▸ ((hp.map _).sum_eq).symm, h3.trans (hp.map _).sum_eq, h4.trans (hp.map _).sum_eq,
    h5.trans (hp.map _).sum_eq⟩

omit [LinearOrder K] [IsStrictOrderedRing K] in
theorem hom_along (p0 p1 : Pt K) (t : K) (i : Fin 4) : hom (Spec.along p0 p1 t) i = (1 - t) * hom p0 i + t * hom p1 i := by
  match i with
  | 0 => change p0.x + t * (p1.x - p0.x) = (1 - t) * p0.x + t * p1.x; ring
  | 1 => change p0.y + t * (p1.y - p0.y) = (1 - t) * p0.y + t * p1.y; ring
  | 2 => change p0.z + t * (p1.z - p0.z) = (1 - t) * p0.z + t * p1.z; ring
  | 3 => change (1 : K) = (1 - t) * 1 + t * 1; ring

/-- Whether the segment comes upon the triangle, by determinants. -/
def HitsDet (A B C U W : Vec4 K) (t : K) : Prop :=
  0 < t ∧ t ≤ 1 ∧ (∃ x y z : K, 0 ≤ x ∧ 0 ≤ y ∧ 0 ≤ z ∧ ∀ i, (1 - t) * U i + t * W i = x * A i + y * B i + z * C i) ∧
    det A B C U ≠ det A B C W

theorem hitsAt_det {a b c v0 v1 : VId} {p0 p1 : Pt K} {t : K} (ha : Spec.Placed m a) (hb : Spec.Placed m b) (hc : Spec.Placed m c)
    (hn : [a, b, c].Nodup) (h0 : At m v0 p0) (h1 : At m v1 p1) :
    ComesUpon m v0 v1 p0 p1 a b c t ↔ HitsDet (homv m a) (homv m b) (homv m c) (homv m v0) (homv m v1) t := by
  obtain ⟨s, hs⟩ := orient_some ha hb hc (placed_of_At h0)
  obtain ⟨s', hs'⟩ := orient_some ha hb hc (placed_of_At h1)
  have e1 : det (homv m a) (homv m b) (homv m c) (homv m v0) = s := orient_D hs
  have e2 : det (homv m a) (homv m b) (homv m c) (homv m v1) = s' := orient_D hs'
  simp only [List.nodup_cons, List.mem_cons, List.not_mem_nil, or_false, not_or] at hn
  unfold ComesUpon HitsDet
  rw [hs, hs', e1, e2]
  refine and_congr_right fun _ => and_congr_right fun _ => and_congr ⟨fun h => ?_, ?_⟩ (by simp)
  · obtain ⟨φ, h2, h3⟩ := touch_elim h
    refine ⟨φ a, φ b, φ c, h2 a (by simp), h2 b (by simp), h2 c (by simp), fun i => ?_⟩
    have := h3 i
    rw [hom_along, ← h0.homv, ← h1.homv] at this
    simpa [add_assoc] using this
  · rintro ⟨x, y, z, hx, hy, hz, h⟩
    refine touch_of (φ := fun w => if w = a then x else if w = b then y else z) ?_ ?_ ?_
    · intro w _
      split_ifs <;> assumption
    · intro w hw
      simp only [List.mem_cons, List.not_mem_nil, or_false] at hw
      rcases hw with rfl | rfl | rfl <;> assumption
    · intro i
      simp only [List.map_cons, List.map_nil, List.sum_cons, List.sum_nil, if_true, if_neg (Ne.symm hn.1.1), if_neg (Ne.symm hn.1.2),
        if_neg (Ne.symm hn.2.1), add_zero]
      rw [hom_along, ← h0.homv, ← h1.homv, h i, add_assoc]

theorem weakSign_iff {l : List K} : Mesh.weakSign l = true ↔ (∀ x ∈ l, 0 ≤ x) ∨ ∀ x ∈ l, x ≤ 0 := by
  simp [Mesh.weakSign, Bool.or_eq_true, List.all_eq_true]

theorem baryTime_iff {A B C U W : Vec4 K} {t : K} :
    Mesh.baryTime [det B C U W, det C A U W, det A B U W, det A B C W, det C B A U] = some t ↔ HitsDet A B C U W t := by
  have cr := cramer3 A B C U W
  have alt : det C B A U = - det A B C U := by simp only [det, det3]; ring
  set y0 := det B C U W with d0
  set y1 := det C A U W with d1
  set y2 := det A B U W with d2
  set y3 := det A B C W with d3
  set y4 := det C B A U with d4
  have e : Mesh.baryTime [y0, y1, y2, y3, y4] = some t ↔ Mesh.weakSign [y0, y1, y2, y3, y4] = true ∧ 0 < y4 / (y3 + y4) ∧ y4 / (y3 + y4) = t := by
    simp only [Mesh.baryTime, List.getElem?_cons_zero, List.getElem?_cons_succ, Option.bind_eq_bind, Option.bind_some, Option.pure_def]
    split_ifs <;> simp_all
  rw [e, weakSign_iff]
  simp only [List.mem_cons, List.not_mem_nil, or_false, forall_eq_or_imp, forall_eq]
  constructor
  · rintro ⟨hs, hp, rfl⟩
    have hD : y3 + y4 ≠ 0 := by
      intro h
      rw [h, div_zero] at hp
      exact lt_irrefl _ hp
    have h3 : y3 / (y3 + y4) + y4 / (y3 + y4) = 1 := by rw [← add_div, div_self hD]
    have hq : 0 ≤ y0 / (y3 + y4) ∧ 0 ≤ y1 / (y3 + y4) ∧ 0 ≤ y2 / (y3 + y4) ∧ 0 ≤ y3 / (y3 + y4) := by
      rcases hs with ⟨g0, g1, g2, g3, g4⟩ | ⟨g0, g1, g2, g3, g4⟩
      · have := add_nonneg g3 g4
        exact ⟨div_nonneg g0 this, div_nonneg g1 this, div_nonneg g2 this, div_nonneg g3 this⟩
      · have := add_nonpos g3 g4
        exact ⟨div_nonneg_of_nonpos g0 this, div_nonneg_of_nonpos g1 this, div_nonneg_of_nonpos g2 this, div_nonneg_of_nonpos g3 this⟩
    refine ⟨hp, by linarith [hq.2.2.2], ⟨_, _, _, hq.1, hq.2.1, hq.2.2.1, fun i => ?_⟩, fun h => hD (by rw [alt, h]; ring)⟩
    have h4 : 1 - y4 / (y3 + y4) = y3 / (y3 + y4) := by linear_combination -h3
    rw [h4]
    have := cr i
    simp only [div_eq_mul_inv]
    linear_combination (-(y3 + y4)⁻¹) * this
  · rintro ⟨hp, hle, ⟨x, y, z, hx, hy, hz, h⟩, hne⟩
    have hD : y3 + y4 ≠ 0 := by
      intro h'
      exact hne (by linear_combination -h' + alt)
    have lin : ∀ P Q R : Vec4 K, (1 - t) * det P Q R U + t * det P Q R W = x * det P Q R A + y * det P Q R B + z * det P Q R C := by
      intro P Q R
      have : (1 - t) • U + t • W = x • A + y • B + z • C := by
        ext i
        simpa using h i
      have := congrArg (fun3 P Q R) this
      simpa only [map_add, map_smul, fun3_apply, smul_eq_mul] using this
    have k4 : y4 = t * (y3 + y4) := by
      have := lin A B C
      have s1 : det A B C A = 0 := by simp only [det, det3]; ring
      have s2 : det A B C B = 0 := by simp only [det, det3]; ring
      have s3 : det A B C C = 0 := by simp only [det, det3]; ring
      rw [s1, s2, s3, ← d3] at this
      linear_combination (1 - t) * alt - this
    have k3 : y3 = (1 - t) * (y3 + y4) := by linear_combination -k4
    have k0 : y0 = x * (y3 + y4) := by
      have := lin B C U
      have s1 : det B C U U = 0 := by simp only [det, det3]; ring
      have s2 : det B C U B = 0 := by simp only [det, det3]; ring
      have s3 : det B C U C = 0 := by simp only [det, det3]; ring
      have s4 : det B C U A = y4 := by rw [d4]; simp only [det, det3]; ring
      rw [s1, s2, s3, s4, ← d0] at this
      refine mul_left_cancel₀ hp.ne' ?_
      linear_combination this + x * k4
    have k1 : y1 = y * (y3 + y4) := by
      have := lin C A U
      have s1 : det C A U U = 0 := by simp only [det, det3]; ring
      have s2 : det C A U A = 0 := by simp only [det, det3]; ring
      have s3 : det C A U C = 0 := by simp only [det, det3]; ring
      have s4 : det C A U B = y4 := by rw [d4]; simp only [det, det3]; ring
      rw [s1, s2, s3, s4, ← d1] at this
      refine mul_left_cancel₀ hp.ne' ?_
      linear_combination this + y * k4
    have k2 : y2 = z * (y3 + y4) := by
      have := lin A B U
      have s1 : det A B U U = 0 := by simp only [det, det3]; ring
      have s2 : det A B U A = 0 := by simp only [det, det3]; ring
      have s3 : det A B U B = 0 := by simp only [det, det3]; ring
      have s4 : det A B U C = y4 := by rw [d4]; simp only [det, det3]; ring
      rw [s1, s2, s3, s4, ← d2] at this
      refine mul_left_cancel₀ hp.ne' ?_
      linear_combination this + z * k4
    have ht : y4 / (y3 + y4) = t := by rw [div_eq_iff hD]; exact k4
    refine ⟨?_, ht ▸ hp, ht⟩
    have h1t : 0 ≤ 1 - t := by linarith
    rcases le_total 0 (y3 + y4) with g | g
    · left
      generalize y3 + y4 = D at *
      rw [k0, k1, k2, k3, k4]
      exact ⟨mul_nonneg hx g, mul_nonneg hy g, mul_nonneg hz g, mul_nonneg h1t g, mul_nonneg hp.le g⟩
    · right
      generalize y3 + y4 = D at *
      rw [k0, k1, k2, k3, k4]
      exact ⟨mul_nonpos_of_nonneg_of_nonpos hx g, mul_nonpos_of_nonneg_of_nonpos hy g, mul_nonpos_of_nonneg_of_nonpos hz g,
        mul_nonpos_of_nonneg_of_nonpos h1t g, mul_nonpos_of_nonneg_of_nonpos hp.le g⟩

/-- The orders of the triangle do not matter. -/
theorem HitsDet.swap {A B C U W : Vec4 K} {t : K} (h : HitsDet A B C U W t) : HitsDet B A C U W t := by
  obtain ⟨h1, h2, ⟨x, y, z, hx, hy, hz, h⟩, h3⟩ := h
  refine ⟨h1, h2, ⟨y, x, z, hy, hx, hz, fun i => by rw [h i]; ring⟩, fun h4 => h3 ?_⟩
  have e : ∀ X, det B A C X = - det A B C X := fun X => by simp only [det, det3]; ring
  rw [e, e] at h4
  exact neg_injective h4

theorem HitsDet.rot {A B C U W : Vec4 K} {t : K} (h : HitsDet A B C U W t) : HitsDet B C A U W t := by
  obtain ⟨h1, h2, ⟨x, y, z, hx, hy, hz, h⟩, h3⟩ := h
  refine ⟨h1, h2, ⟨y, z, x, hy, hz, hx, fun i => by rw [h i]; ring⟩, fun h4 => h3 ?_⟩
  have e : ∀ X, det B C A X = det A B C X := fun X => by simp only [det, det3]; ring
  rwa [e, e] at h4

theorem oppBary_spec (hm : Consistent m) {w : Walker} {v a b c v0 v1 : VId} {p0 p1 : Pt K} (hw : m.tet4 w = some (v, a, b, c))
    (h0 : At m v0 p0) (h1 : At m v1 p1) :
    ∃ l, m.oppBary v0 v1 w = some l ∧ ∀ t, Mesh.baryTime l = some t ↔ ComesUpon m v0 v1 p0 p1 a b c t := by
  have hh : HasTet m (v, a, b, c) := ⟨w, hw⟩
  have pa := placed_tet hm hh (v := a) (by simp [list4])
  have pb := placed_tet hm hh (v := b) (by simp [list4])
  have pc := placed_tet hm hh (v := c) (by simp [list4])
  have hn := hm.distinct _ _ _ _ _ hw
  have e : m.oppTri w = some (c, b, a) := by
    obtain ⟨t, k1, k2⟩ := Mesh.tet4_iff.1 hw
    simp only [Tet.tet, Prod.mk.injEq] at k2
    obtain ⟨q1, q2, q3, q4⟩ := k2
    simp [Mesh.oppTri, k1, Tet.oppTri, q2, q3, q4]
  have q0 := placed_of_At h0
  have q1 := placed_of_At h1
  obtain ⟨y0, e0⟩ := orient_some pb pa q0 q1
  obtain ⟨y1, e1⟩ := orient_some pa pc q0 q1
  obtain ⟨y2, e2⟩ := orient_some pc pb q0 q1
  obtain ⟨y3, e3⟩ := orient_some pc pb pa q1
  obtain ⟨y4, e4⟩ := orient_some pa pb pc q0
  refine ⟨[y0, y1, y2, y3, y4], by simp [Mesh.oppBary, e, Mesh.triEdgeBary, e0, e1, e2, e3, e4], fun t => ?_⟩
  have f0 : det (homv m b) (homv m a) (homv m v0) (homv m v1) = y0 := orient_D e0
  have f1 : det (homv m a) (homv m c) (homv m v0) (homv m v1) = y1 := orient_D e1
  have f2 : det (homv m c) (homv m b) (homv m v0) (homv m v1) = y2 := orient_D e2
  have f3 : det (homv m c) (homv m b) (homv m a) (homv m v1) = y3 := orient_D e3
  have f4 : det (homv m a) (homv m b) (homv m c) (homv m v0) = y4 := orient_D e4
  rw [← f0, ← f1, ← f2, ← f3, ← f4, baryTime_iff, hitsAt_det pa pb pc ?_ h0 h1]
  · exact ⟨fun h => h.rot.swap, fun h => h.rot.swap⟩
  · exact (List.nodup_cons.1 hn).2

theorem timeUntil_does (hm : Consistent m) {v v0 v1 : VId} {p0 p1 : Pt K} (hs : StarConnected m v) (h0 : At m v0 p0) (h1 : At m v1 p1) :
    Does (fun fuel => m.timeUntilNotStarShaped fuel v v0 v1) fun r =>
      match r with
      | none => ¬ Solid m v
      | some r => Solid m v ∧ FirstHit m v v0 v1 p0 p1 r := by
  unfold Mesh.timeUntilNotStarShaped
  refine (walkersOf_does hm v).bind (fun ws hw _ => ?_) fun h _ => h
  obtain ⟨hv, hne, hf, hall⟩ := hw
  have hall := hall hs
  have hb : ∀ w ∈ ws, ∃ a b c, m.tet4 w = some (v, a, b, c) := by
    intro w hw
    have := hf w hw
    simp only [Mesh.first, Option.map_eq_some_iff] at this
    obtain ⟨t, k1, k2⟩ := this
    exact ⟨_, _, _, Mesh.tet4_iff.2 ⟨t, k1, by simp only [Tet.tet, k2]; rfl⟩⟩
  obtain ⟨ls, h2, h3⟩ := mapM_all (f := m.oppBary v0 v1) ws fun w hw => by
    obtain ⟨a, b, c, h⟩ := hb w hw
    obtain ⟨l, h, -⟩ := oppBary_spec hm h h0 h1
    exact ⟨l, h⟩
  -- the times
  have ht : ∀ t, t ∈ ls.filterMap Mesh.baryTime ↔ ∃ a b c, HasTet m (v, a, b, c) ∧ ComesUpon m v0 v1 p0 p1 a b c t := by
    intro t
    rw [List.mem_filterMap]
    constructor
    · rintro ⟨l, hl, hlt⟩
      have : some l ∈ ls.map some := List.mem_map_of_mem hl
      rw [← h3, List.mem_map] at this
      obtain ⟨w, hw, hwl⟩ := this
      obtain ⟨a, b, c, h⟩ := hb w hw
      obtain ⟨l', h4, h5⟩ := oppBary_spec hm h h0 h1
      rw [hwl] at h4
      cases h4
      exact ⟨a, b, c, ⟨w, h⟩, (h5 t).1 hlt⟩
    · rintro ⟨a, b, c, ⟨x, hx⟩, hc⟩
      obtain ⟨w, hw, hwx⟩ := hall x (tet4_parts hx).1
      obtain ⟨a', b', c', h⟩ := hb w hw
      obtain ⟨l', h4, h5⟩ := oppBary_spec hm h h0 h1
      have hl' : l' ∈ ls := by
        have : some l' ∈ ls.map some := by
          rw [← h3, ← h4]
          exact List.mem_map_of_mem hw
        simpa using this
      refine ⟨l', hl', (h5 t).2 ?_⟩
      have hn := hm.distinct _ _ _ _ _ hx
      have hh : HasTet m (v, a, b, c) := ⟨x, hx⟩
      have pa := placed_tet hm hh (v := a) (by simp [list4])
      have pb := placed_tet hm hh (v := b) (by simp [list4])
      have pc := placed_tet hm hh (v := c) (by simp [list4])
      have hn' := (List.nodup_cons.1 hn).2
      have hd := (hitsAt_det pa pb pc hn' h0 h1).1 hc
      have k := same_first (tet4_same hwx.symm hx h) (by simp only [List.nodup_cons, List.mem_cons, List.not_mem_nil, or_false, not_or] at hn; exact hn.1)
      simp only [Prod.mk.injEq] at k
      rcases k with ⟨rfl, rfl, rfl⟩ | ⟨rfl, rfl, rfl⟩ | ⟨rfl, rfl, rfl⟩
      · exact hc
      · exact (hitsAt_det pb pc pa (by simp only [List.nodup_cons, List.mem_cons, List.not_mem_nil, or_false, not_or] at hn' ⊢; tauto) h0 h1).2 hd.rot
      · exact (hitsAt_det pc pa pb (by simp only [List.nodup_cons, List.mem_cons, List.not_mem_nil, or_false, not_or] at hn' ⊢; tauto) h0 h1).2 hd.rot.rot
  refine does_const ?_ |>.congr fun n => by rw [h2]
  refine ⟨hv, ?_⟩
  rcases minByKey_spec (le := fun a b : K => decide (a ≤ b)) (fun a b => by simpa using le_total a b) (fun a b c h h' => by
    simp only [decide_eq_true_eq] at *; exact h.trans h') ((ls.filterMap Mesh.baryTime).map fun t => (t, t)) with ⟨k1, k2⟩ | ⟨x, k1, k2, k3⟩
  · rw [k2]
    intro a b c s hh hc
    have := (ht s).2 ⟨a, b, c, hh, hc⟩
    rw [List.map_eq_nil_iff] at k1
    rw [k1] at this
    simp at this
  · rw [k2]
    obtain ⟨t, ht', rfl⟩ := List.mem_map.1 k1
    refine ⟨(ht t).1 ht', fun a b c s hh hc => ?_⟩
    simpa using k3 (s, s) (List.mem_map.2 ⟨s, (ht s).2 ⟨a, b, c, hh, hc⟩, rfl⟩)

end Tet
