import Mathlib.Algebra.Module.LinearMap.Basic
import Verif.Proofs.FanWalk
import Verif.Proofs.General

/-!
# The tets that a triangle passes through, if its edges are edges of tets
-/

namespace Tet
open Spec Vec4
variable {K : Type} [Field K] [LinearOrder K] [IsStrictOrderedRing K]
variable {h : VId → Vec4 K} {wt : Vec4 K →ₗ[K] K} {S : V4 → Prop} {P : VId → Prop}

/-- A triangle whose edges are edges of tets, but which is not a triangle of a tet. -/
structure Frame (h : VId → Vec4 K) (wt : Vec4 K →ₗ[K] K) (S : V4 → Prop) (a b c : VId) : Prop where
  wa : 0 < wt (h a)
  wb : 0 < wt (h b)
  wc : 0 < wt (h c)
  ab : ∃ x y, S (a, b, x, y)
  bc : ∃ x y, S (b, c, x, y)
  ca : ∃ x y, S (c, a, x, y)
  no : ∀ d, ¬ S (a, b, c, d)

/-- The edge goes through the triangle. -/
def Pierces (h : VId → Vec4 K) (a b c u v : VId) : Prop := (∃ t, Hits h u v a b c t) ∧ D h (a, b, c, u) ≠ 0

variable {a b c : VId}

theorem Generic.dist (hg : Generic h wt S P) {x y z w : VId} (hs : S (x, y, z, w)) :
    x ≠ y ∧ x ≠ z ∧ x ≠ w ∧ y ≠ z ∧ y ≠ w ∧ z ≠ w := D_nodup (h := h) (hg.fan.pos _ hs).ne'

theorem Generic.in_plane (hg : Generic h wt S P) {x y z v : VId} (px : P x) (py : P y) (pz : P z) (pv : P v) (hxy : x ≠ y) (hxz : x ≠ z)
    (hyz : y ≠ z) (h0 : D h (x, y, z, v) = 0) : v = x ∨ v = y ∨ v = z := by
  by_contra hn
  simp only [not_or] at hn
  refine hg.gen x y z v ?_ px py pz pv h0
  simp only [List.nodup_cons, List.mem_cons, List.not_mem_nil, or_false, not_or, not_false_iff, List.nodup_nil, and_true]
  exact ⟨⟨hxy, hxz, Ne.symm hn.1⟩, ⟨hyz, Ne.symm hn.2.1⟩, Ne.symm hn.2.2⟩

/-- The vertices of the triangle. -/
theorem Frame.verts (hf : Frame h wt S a b c) (hg : Generic h wt S P) :
    P a ∧ P b ∧ P c ∧ a ≠ b ∧ b ≠ c ∧ a ≠ c := by
  obtain ⟨x, y, h1⟩ := hf.ab
  obtain ⟨x', y', h2⟩ := hf.bc
  obtain ⟨x'', y'', h3⟩ := hf.ca
  exact ⟨(hg.verts _ _ _ _ h1).1, (hg.verts _ _ _ _ h2).1, (hg.verts _ _ _ _ h3).1, (hg.dist h1).1, (hg.dist h2).1, (hg.dist h3).1.symm⟩

theorem Frame.rot (hf : Frame h wt S a b c) (hg : Generic h wt S P) : Frame h wt S b c a :=
  ⟨hf.wb, hf.wc, hf.wa, hf.bc, hf.ca, hf.ab, fun d hd => hf.no d (hg.fan.closed _ _ hd (mem_twelve.1 (by simp [twelve])))⟩

/-- No tet has all three vertices. -/
theorem Frame.not_all (hf : Frame h wt S a b c) (hg : Generic h wt S P) {x y z w : VId} (hs : S (x, y, z, w))
    (h1 : a = x ∨ a = y ∨ a = z) (h2 : b = x ∨ b = y ∨ b = z) (h3 : c = x ∨ c = y ∨ c = z) : False := by
  obtain ⟨-, -, -, d1, d2, d3⟩ := hf.verts hg
  have t (q : V4) (hq : q ∈ twelve (x, y, z, w)) : S q := hg.fan.closed _ _ hs (mem_twelve.1 hq)
  have no' : ∀ d, ¬ S (b, a, c, d) := fun d hd => by
    obtain ⟨e, he⟩ := hg.adj _ _ _ _ hd
    exact hf.no e he
  rcases h1 with rfl | rfl | rfl <;> rcases h2 with rfl | rfl | rfl <;> rcases h3 with rfl | rfl | rfl
  all_goals first
    | exact d1 rfl
    | exact d2 rfl
    | exact d3 rfl
    | (refine hf.no w (t _ ?_); simp [twelve]; done)
    | (refine no' w (t _ ?_); simp [twelve]; done)

/-- No triangle of a tet is in the plane. -/
theorem Frame.off (hf : Frame h wt S a b c) (hg : Generic h wt S P) {q : V4} (hq : S q) :
    F h q (h a) ≠ 0 ∨ F h q (h b) ≠ 0 ∨ F h q (h c) ≠ 0 := by
  obtain ⟨x, y, z, w⟩ := q
  obtain ⟨pa, pb, pc, -⟩ := hf.verts hg
  obtain ⟨px, py, pz, -⟩ := hg.verts _ _ _ _ hq
  obtain ⟨d1, d2, -, d3, -⟩ := hg.dist hq
  by_contra hn
  simp only [not_or, not_not] at hn
  obtain ⟨n1, n2, n3⟩ := hn
  exact hf.not_all hg hq (hg.in_plane px py pz pa d1 d2 d3 n1) (hg.in_plane px py pz pb d1 d2 d3 n2)
    (hg.in_plane px py pz pc d1 d2 d3 n3)

theorem Cell.pos_smul {p : V4} {k : K} (hk : 0 < k) {x : Vec4 K} (hc : Cell h p (k • x)) : Cell h p x :=
  Cell_iff.2 fun q hq => by
    have := Cell_iff.1 hc q hq
    rw [map_smul, smul_eq_mul] at this
    exact (mul_pos_iff_of_pos_left hk).1 this

/-- Edges are not inside tets. -/
theorem Generic.edge_outside (hg : Generic h wt S P) {v0 v1 x y : VId} (he : S (v0, v1, x, y)) (w0 : 0 < wt (h v0)) (w1 : 0 < wt (h v1))
    {k0 k1 : K} (h0 : 0 ≤ k0) (h1 : 0 ≤ k1) {p : V4} (hp : S p) (hc : Cell h p (k0 • h v0 + k1 • h v1)) : False := by
  rcases h0.lt_or_eq with h0 | rfl
  · rcases h1.lt_or_eq with h1 | rfl
    · have hw : 0 < wt (k0 • h v0 + k1 • h v1) := by
        rw [map_add, map_smul, map_smul, smul_eq_mul, smul_eq_mul]
        have := mul_pos h0 w0
        have := mul_pos h1 w1
        linarith
      have hs := hg.fan.overlap hp he hw (fun q hq => .inl (Cell_iff.1 hc q hq)) (.edge (hg.fan.pos _ he) h0 h1)
      have := Cell_iff.1 hc _ hs
      rw [map_add, map_smul, map_smul, smul_eq_mul, smul_eq_mul] at this
      change 0 < k0 * det (h v0) (h v1) (h x) (h v0) + k1 * det (h v0) (h v1) (h x) (h v1) at this
      rw [self0, self1, mul_zero, mul_zero, add_zero] at this
      exact lt_irrefl _ this
    · rw [zero_smul, add_zero] at hc
      exact hg.fan.vertex_outside (hg.fan.closed _ _ he (mem_twelve.1 (by simp [twelve] : (y, x, v1, v0) ∈ _))) w0 hp (hc.pos_smul h0)
  · rw [zero_smul, zero_add] at hc
    rcases h1.lt_or_eq with h1 | rfl
    · exact hg.fan.vertex_outside (hg.fan.closed _ _ he (mem_twelve.1 (by simp [twelve] : (x, y, v0, v1) ∈ _))) w1 hp (hc.pos_smul h1)
    · rw [zero_smul] at hc
      have := Cell_iff.1 hc _ (mem_twelve.1 (by simp [twelve] : p ∈ twelve p))
      rw [map_zero] at this
      exact lt_irrefl _ this

/-- Vectors in the plane of a triangle. -/
theorem in_span {a b c e : Vec4 K} (hD : det a b c e ≠ 0) {x : Vec4 K} (hx : det a b c x = 0) :
    ∃ k1 k2 k3 : K, x = k1 • a + k2 • b + k3 • c := by
  obtain ⟨k1, k2, k3, k4, rfl⟩ := basis hD x
  have : k4 = 0 := by
    simp only [det_add, det_smul, self0, self1, self2, mul_zero, zero_add] at hx
    exact (mul_eq_zero.1 hx).resolve_right hD
  exact ⟨k1, k2, k3, by rw [this]; module⟩

/-- Combinations of the vertices of a triangle. -/
def plane (a b c : Vec4 K) : Vec4 K →ₗ[K] Vec4 K where
  toFun w := w 0 • a + w 1 • b + w 2 • c
  map_add' w w' := by simp only [Pi.add_apply]; module
  map_smul' k w := by simp only [Pi.smul_apply, smul_eq_mul, RingHom.id_apply]; module

theorem plane_apply (a b c w : Vec4 K) : plane a b c w = w 0 • a + w 1 • b + w 2 • c := rfl

/-- A coordinate. -/
def coord (i : Fin 4) : Vec4 K →ₗ[K] K where
  toFun w := w i
  map_add' _ _ := rfl
  map_smul' _ _ := rfl

theorem coord_apply (i : Fin 4) (w : Vec4 K) : coord i w = w i := rfl

theorem Pierces.opposite {u v : VId} (hp : Pierces h a b c u v) : D h (a, b, c, u) * D h (a, b, c, v) < 0 := by
  obtain ⟨⟨t, t0, t1, ka, kb, kc, -, -, -, hx⟩, hn⟩ := hp
  have e : F h (a, b, c, u) (pt h u v t) = 0 := by
    rw [hx]
    change det (h a) (h b) (h c) _ = 0
    simp only [det_add, det_smul, self0, self1, self2, mul_zero, add_zero]
  rw [F_pt] at e
  change (1 - t) * D h (a, b, c, u) + t * D h (a, b, c, v) = 0 at e
  have h1 : t * (D h (a, b, c, u) * D h (a, b, c, v)) = -((1 - t) * (D h (a, b, c, u) * D h (a, b, c, u))) := by
    linear_combination D h (a, b, c, u) * e
  have h2 := mul_pos (by linarith : 0 < 1 - t) (mul_self_pos.2 hn)
  by_contra h3
  have := mul_nonneg t0.le (not_lt.1 h3)
  linarith

theorem Pierces.swap {u v : VId} (hp : Pierces h a b c u v) : Pierces h a b c v u := by
  have ho := hp.opposite
  obtain ⟨⟨t, t0, t1, hi⟩, hn⟩ := hp
  refine ⟨⟨1 - t, by linarith, by linarith, ?_⟩, fun h0 => by rw [h0, mul_zero] at ho; exact lt_irrefl _ ho⟩
  rw [show pt h v u (1 - t) = pt h u v t by simp only [pt]; module]
  exact hi

/-- An edge between the two sides of the plane of the triangle, of a tet whose inside contains a vector of the triangle,
goes through the triangle. -/
theorem Frame.pierces (hf : Frame h wt S a b c) (hg : Generic h wt S P) {u v r s : VId} (hS : S (u, v, r, s)) {y : Vec4 K}
    (hy : Cell h (u, v, r, s) y) (hi : InTri (h a) (h b) (h c) y) (ho : D h (a, b, c, u) * D h (a, b, c, v) < 0) :
    Pierces h a b c u v := by
  wlog hpos : 0 < D h (a, b, c, u) generalizing u v r s
  · have hn : D h (a, b, c, u) < 0 := by
      rcases (not_lt.1 hpos).lt_or_eq with h1 | h1
      · exact h1
      · rw [h1, zero_mul] at ho
        exact absurd ho (lt_irrefl _)
    have hs : SameTet (u, v, r, s) (v, u, s, r) := mem_twelve.1 (by simp [twelve])
    refine (this (hg.fan.closed _ _ hS hs) ((Cell_same hs).2 hy) (by rwa [mul_comm]) ?_).swap
    by_contra h1
    have := mul_nonneg_of_nonpos_of_nonpos hn.le (not_lt.1 h1)
    linarith
  have hneg : D h (a, b, c, v) < 0 := by
    by_contra h1
    have := mul_nonneg hpos.le (not_lt.1 h1)
    linarith
  set fu := D h (a, b, c, u) with hfu
  set fv := D h (a, b, c, v) with hfv
  have e1 : det (h a) (h b) (h c) (h u) = fu := rfl
  have e2 : det (h a) (h b) (h c) (h v) = fv := rfl
  obtain ⟨pa, pb, pc, dab, dbc, dac⟩ := hf.verts hg
  obtain ⟨pu, pv, -, -⟩ := hg.verts _ _ _ _ hS
  have duv := (hg.dist hS).1
  -- where the edge meets the plane
  set x := (-fv) • h u + fu • h v with hx
  have hx0 : det (h a) (h b) (h c) x = 0 := by
    rw [hx, det_add, det_smul, det_smul, e1, e2]; ring
  obtain ⟨k1, k2, k3, hk⟩ := in_span (e := h u) (by rw [e1]; exact hpos.ne') hx0
  have hcx : ∀ q, SameTet (u, v, r, s) q → 0 ≤ F h q x := by
    rintro ⟨q1, q2, q3, q4⟩ hq
    obtain ⟨a0, -⟩ := corner_nonneg (v := u) (hg.fan.pos _ hS) hq (by simp)
    obtain ⟨a1, -⟩ := corner_nonneg (v := v) (hg.fan.pos _ hS) hq (by simp)
    rw [hx, map_add, map_smul, map_smul, smul_eq_mul, smul_eq_mul]
    exact add_nonneg (mul_nonneg (by linarith) a0) (mul_nonneg hpos.le a1)
  have nu : ∀ {w}, D h (a, b, c, w) ≠ 0 → a ≠ w ∧ b ≠ w ∧ c ≠ w := by
    intro w hw
    refine ⟨?_, ?_, ?_⟩ <;> rintro rfl
    · exact hw (self0 ..)
    · exact hw (self1 ..)
    · exact hw (self2 ..)
  obtain ⟨u1, u2, u3⟩ := nu hpos.ne'
  obtain ⟨v1, v2, v3⟩ := nu hneg.ne
  have nz : ∀ {p q : VId}, P p → P q → p ≠ q → p ≠ u → q ≠ u → p ≠ v → q ≠ v → det (h p) (h q) (h u) x ≠ 0 := by
    intro p q pp pq d1 d2 d3 d4 d5 h0
    rw [hx, det_add, det_smul, det_smul, self2, mul_zero, zero_add] at h0
    refine hg.gen p q u v ?_ pp pq pu pv ((mul_eq_zero.1 h0).resolve_left hpos.ne')
    simp only [List.nodup_cons, List.mem_cons, List.not_mem_nil, or_false, not_or, not_false_iff, List.nodup_nil, and_true]
    exact ⟨⟨d1, d2, d4⟩, ⟨d3, d5⟩, duv⟩
  have n3 : k3 ≠ 0 := by
    rintro rfl
    refine nz pa pb dab u1 u2 v1 v2 ?_
    rw [hk, zero_smul, add_zero, det_add, det_smul, det_smul, self0, self1, mul_zero, mul_zero, add_zero]
  have n2 : k2 ≠ 0 := by
    rintro rfl
    refine nz pa pc dac u1 u3 v1 v3 ?_
    rw [hk, zero_smul, add_zero, det_add, det_smul, det_smul, self0, self1, mul_zero, mul_zero, add_zero]
  have n1 : k1 ≠ 0 := by
    rintro rfl
    refine nz pb pc dbc u2 u3 v2 v3 ?_
    rw [hk, zero_smul, zero_add, det_add, det_smul, det_smul, self0, self1, mul_zero, mul_zero, add_zero]
  by_cases hall : 0 < k1 ∧ 0 < k2 ∧ 0 < k3
  · obtain ⟨j1, j2, j3⟩ := hall
    have hd : 0 < fu - fv := by linarith
    have hi := inv_pos.2 hd
    have hone : (fu - fv)⁻¹ * (fu - fv) = 1 := inv_mul_cancel₀ hd.ne'
    refine ⟨⟨(fu - fv)⁻¹ * fu, mul_pos hi hpos, ?_, (fu - fv)⁻¹ * k1, (fu - fv)⁻¹ * k2, (fu - fv)⁻¹ * k3, mul_pos hi j1,
      mul_pos hi j2, mul_pos hi j3, ?_⟩, hpos.ne'⟩
    · have := mul_lt_mul_of_pos_left (by linarith : fu < fu - fv) hi
      linarith
    · have e3 : pt h u v ((fu - fv)⁻¹ * fu) = (fu - fv)⁻¹ • x := by
        have e4 : 1 - (fu - fv)⁻¹ * fu = (fu - fv)⁻¹ * (-fv) := by linear_combination -hone
        rw [show pt h u v ((fu - fv)⁻¹ * fu) = (1 - (fu - fv)⁻¹ * fu) • h u + ((fu - fv)⁻¹ * fu) • h v by simp only [pt]; module,
          e4, hx]
        module
      rw [e3, hk]
      module
  · exfalso
    obtain ⟨y1, y2, y3, i1, i2, i3, hyy⟩ := hi
    obtain ⟨t, t0, t1, hge, g, hgm, hg0, -⟩ := first_zero (G := [coord 0, coord 1, coord 2]) (y := ![y1, y2, y3, 0])
      (v := ![k1, k2, k3, 0]) (by
        intro g hgm
        simp only [List.mem_cons, List.not_mem_nil, or_false] at hgm
        rcases hgm with rfl | rfl | rfl <;> left <;> assumption) (by
        by_contra hcon
        push Not at hcon
        exact hall ⟨lt_of_le_of_ne (hcon (coord 0) (by simp)) (Ne.symm n1), lt_of_le_of_ne (hcon (coord 1) (by simp)) (Ne.symm n2),
          lt_of_le_of_ne (hcon (coord 2) (by simp)) (Ne.symm n3)⟩)
    have hz : y + t • (x - y) = (y1 + t * (k1 - y1)) • h a + (y2 + t * (k2 - y2)) • h b + (y3 + t * (k3 - y3)) • h c := by
      rw [hyy, hk]; module
    have g1 : 0 ≤ y1 + t * (k1 - y1) := hge (coord 0) (by simp)
    have g2 : 0 ≤ y2 + t * (k2 - y2) := hge (coord 1) (by simp)
    have g3 : 0 ≤ y3 + t * (k3 - y3) := hge (coord 2) (by simp)
    have hc : Cell h (u, v, r, s) (y + t • (x - y)) := Cell_iff.2 fun q hq => by
      have m1 := Cell_iff.1 hy q hq
      have m2 := hcx q hq
      rw [map_add, map_smul, map_sub, smul_eq_mul]
      have m3 := mul_pos (by linarith : 0 < 1 - t) m1
      have m4 := mul_nonneg t0.le m2
      linarith
    rw [hz] at hc
    obtain ⟨_, _, hab⟩ := hf.ab
    obtain ⟨_, _, hbc⟩ := hf.bc
    obtain ⟨_, _, hca⟩ := hf.ca
    simp only [List.mem_cons, List.not_mem_nil, or_false] at hgm
    rcases hgm with rfl | rfl | rfl
    · have hg0 : y1 + t * (k1 - y1) = 0 := hg0
      rw [hg0, zero_smul, zero_add] at hc
      exact hg.edge_outside hbc hf.wb hf.wc g2 g3 hS hc
    · have hg0 : y2 + t * (k2 - y2) = 0 := hg0
      rw [hg0, zero_smul, add_zero, add_comm] at hc
      exact hg.edge_outside hca hf.wc hf.wa g3 g1 hS hc
    · have hg0 : y3 + t * (k3 - y3) = 0 := hg0
      rw [hg0, zero_smul, add_zero] at hc
      exact hg.edge_outside hab hf.wa hf.wb g1 g2 hS hc


/-- If the triangle is missing, an edge that is opposite to its first one goes through it. -/
theorem Frame.first (hf : Frame h wt S a b c) (hg : Generic h wt S P) : ∃ r s, S (a, b, r, s) ∧ Pierces h a b c r s := by
  classical
  obtain ⟨pa, pb, pc, dab, dbc, dac⟩ := hf.verts hg
  let L := hg.fan.fin.toFinset.toList
  have hL : ∀ q, q ∈ L ↔ S q := by simp [L]
  -- a point of the edge that is in no other plane
  obtain ⟨w, hw1, hw2⟩ := near_small ((L.map fun q => (F h q).comp (plane (h a) (h b) 0)).filter fun f => decide (f ≠ 0))
    [coord 0, coord 1] ![1, 1, 0, 0] 0 (by
      intro f hfm
      simpa using (List.mem_filter.1 hfm).2) (by
      intro g hgm
      simp only [List.mem_cons, List.not_mem_nil, or_false] at hgm
      left
      rcases hgm with rfl | rfl <;> exact one_pos)
  have k0 : 0 < w 0 := hw2 (coord 0) (by simp)
  have k1 : 0 < w 1 := hw2 (coord 1) (by simp)
  set y := w 0 • h a + w 1 • h b with hy
  have wy : 0 < wt y := by
    rw [hy, map_add, map_smul, map_smul, smul_eq_mul, smul_eq_mul]
    have := mul_pos k0 hf.wa
    have := mul_pos k1 hf.wb
    linarith
  have both : ∀ {q}, S q → F h q y = 0 → F h q (h a) = 0 ∧ F h q (h b) = 0 := by
    intro q hq h0
    by_contra hcon
    have hne : (F h q).comp (plane (h a) (h b) 0) ≠ 0 := by
      intro hz
      refine hcon ⟨?_, ?_⟩
      · have := LinearMap.congr_fun hz ![1, 0, 0, 0]
        simpa [plane_apply] using this
      · have := LinearMap.congr_fun hz ![0, 1, 0, 0]
        simpa [plane_apply] using this
    refine hw1 _ (List.mem_filter.2 ⟨List.mem_map.2 ⟨q, (hL q).2 hq, rfl⟩, by simpa using hne⟩) ?_
    rw [LinearMap.comp_apply, plane_apply, smul_zero, add_zero]
    exact h0
  -- a little towards the third vertex
  let sg : V4 → Vec4 K →ₗ[K] K := fun q => if 0 < F h q y ∨ F h q y = 0 ∧ 0 < F h q (h c) then F h q else -F h q
  obtain ⟨e, he, hsm⟩ := small (L.map sg) y (h c) (by
    intro g hgm
    obtain ⟨q, hq, rfl⟩ := List.mem_map.1 hgm
    have hq := (hL _).1 hq
    by_cases hc : 0 < F h q y ∨ F h q y = 0 ∧ 0 < F h q (h c)
    · simp only [sg, if_pos hc]
      exact hc
    · simp only [sg, if_neg hc, LinearMap.neg_apply, neg_pos, neg_eq_zero]
      simp only [not_or, not_and, not_lt] at hc
      rcases hc.1.lt_or_eq with h2 | h2
      · exact .inl h2
      · refine .inr ⟨h2, (hc.2 h2).lt_of_ne fun h3 => ?_⟩
        obtain ⟨j1, j2⟩ := both hq h2
        exact (hf.off hg hq).elim (absurd j1) fun h4 => h4.elim (absurd j2) (absurd h3))
  have hsm : ∀ q, S q → 0 < sg q (y + e • h c) := fun q hq => hsm e he le_rfl _ (List.mem_map_of_mem ((hL q).2 hq))
  set x := y + e • h c with hx
  have free : Free h S x := by
    intro q hq h2
    have := hsm q hq
    simp only [sg] at this
    split_ifs at this
    · exact this.ne' h2
    · rw [LinearMap.neg_apply, h2, neg_zero] at this
      exact lt_irrefl _ this
  have wx : 0 < wt x := by
    rw [hx, map_add, map_smul, smul_eq_mul]
    have := mul_pos he hf.wc
    linarith
  obtain ⟨p, hp, hcell, -⟩ := hg.fan.once x wx free
  have hin : ∀ q, SameTet p q → 0 < F h q y ∨ F h q y = 0 ∧ 0 < F h q (h c) := by
    intro q hq
    by_contra hc
    have h2 := hsm q (hg.fan.closed _ _ hp hq)
    simp only [sg, if_neg hc, LinearMap.neg_apply] at h2
    linarith [Cell_iff.1 hcell q hq]
  -- the edge is an edge of the tet
  obtain ⟨r, s, hs⟩ : ∃ r s, SameTet p (a, b, r, s) := by
    by_contra hcon
    push Not at hcon
    obtain ⟨_, _, hab⟩ := hf.ab
    refine hg.edge_outside hab hf.wa hf.wb k0.le k1.le hp (Cell_iff.2 fun q hq => (hin q hq).resolve_right fun h2 => ?_)
    have hq' := hg.fan.closed _ _ hp hq
    obtain ⟨j1, j2⟩ := both hq' h2.1
    obtain ⟨q1, q2, q3, q4⟩ := q
    obtain ⟨d1, d2, -, d3, -⟩ := hg.dist hq'
    obtain ⟨p1, p2, p3, -⟩ := hg.verts _ _ _ _ hq'
    have t (q : V4) (hq' : q ∈ twelve (q1, q2, q3, q4)) : SameTet p q := SameTet.trans' hq (mem_twelve.1 hq')
    have i1 := hg.in_plane p1 p2 p3 pa d1 d2 d3 j1
    have i2 := hg.in_plane p1 p2 p3 pb d1 d2 d3 j2
    clear_value y x
    clear hw1 hw2 both hsm
    rcases i1 with rfl | rfl | rfl <;> rcases i2 with rfl | rfl | rfl
    · exact dab rfl
    · exact hcon _ _ (t (a, b, q3, q4) (by simp [twelve]))
    · exact hcon _ _ (t (a, b, q4, q2) (by simp [twelve]))
    · exact hcon _ _ (t (a, b, q4, q3) (by simp [twelve]))
    · exact dab rfl
    · exact hcon _ _ (t (a, b, q1, q4) (by simp [twelve]))
    · exact hcon _ _ (t (a, b, q2, q4) (by simp [twelve]))
    · exact hcon _ _ (t (a, b, q4, q1) (by simp [twelve]))
    · exact dab rfl
  have hS := hg.fan.closed _ _ hp hs
  refine ⟨r, s, hS, ?_⟩
  have hrs : SameTet (a, b, r, s) (r, s, a, b) := mem_twelve.1 (by simp [twelve])
  refine hf.pierces hg (hg.fan.closed _ _ hS hrs) ((Cell_same (SameTet.trans' hs hrs)).2 hcell)
    ⟨w 0, w 1, e, k0, k1, he, hx⟩ ?_
  have z1 : F h (a, b, r, s) y = 0 := by
    rw [hy, map_add, map_smul, map_smul, smul_eq_mul, smul_eq_mul]
    change w 0 * det (h a) (h b) (h r) (h a) + w 1 * det (h a) (h b) (h r) (h b) = 0
    rw [self0, self1, mul_zero, mul_zero, add_zero]
  have z2 : F h (b, a, s, r) y = 0 := by
    rw [hy, map_add, map_smul, map_smul, smul_eq_mul, smul_eq_mul]
    change w 0 * det (h b) (h a) (h s) (h a) + w 1 * det (h b) (h a) (h s) (h b) = 0
    rw [self0, self1, mul_zero, mul_zero, add_zero]
  have q1 : 0 < det (h a) (h b) (h r) (h c) := ((hin _ hs).resolve_left fun h2 => h2.ne' z1).2
  have q2 : 0 < det (h b) (h a) (h s) (h c) :=
    ((hin _ (SameTet.trans' hs (mem_twelve.1 (by simp [twelve] : (b, a, s, r) ∈ _)))).resolve_left fun h2 => h2.ne' z2).2
  have e1 : D h (a, b, c, r) = -det (h a) (h b) (h r) (h c) := swap2 ..
  have e2 : D h (a, b, c, s) = det (h b) (h a) (h s) (h c) := by simp only [D, det, det3]; ring
  rw [e1, e2, neg_mul, neg_lt_zero]
  exact mul_pos q1 q2

/-- Inside the triangle and a triangle of a tet: also inside the tet. -/
theorem Frame.inside (hf : Frame h wt S a b c) (hg : Generic h wt S P) {p q r w : VId} (hS : S (p, q, r, w)) {y : Vec4 K}
    (hy : InTri (h p) (h q) (h r) y) (hi : InTri (h a) (h b) (h c) y) :
    ∃ y', Cell h (p, q, r, w) y' ∧ InTri (h a) (h b) (h c) y' := by
  -- a direction in the plane
  obtain ⟨k1, k2, k3, hpos⟩ : ∃ k1 k2 k3 : K, 0 < F h (p, q, r, w) (k1 • h a + k2 • h b + k3 • h c) := by
    have key : ∀ v, F h (p, q, r, w) (h v) ≠ 0 → 0 < F h (p, q, r, w) (F h (p, q, r, w) (h v) • h v) := by
      intro v hv
      rw [map_smul, smul_eq_mul]
      exact mul_self_pos.2 hv
    rcases hf.off hg hS with h1 | h1 | h1
    · exact ⟨F h (p, q, r, w) (h a), 0, 0, by rw [zero_smul, zero_smul, add_zero, add_zero]; exact key a h1⟩
    · exact ⟨0, F h (p, q, r, w) (h b), 0, by rw [zero_smul, zero_smul, add_zero, zero_add]; exact key b h1⟩
    · exact ⟨0, 0, F h (p, q, r, w) (h c), by rw [zero_smul, zero_smul, zero_add, zero_add]; exact key c h1⟩
  obtain ⟨y1, y2, y3, i1, i2, i3, rfl⟩ := hi
  obtain ⟨e, he, hsm⟩ := small ((twelve (p, q, r, w)).map (fun q => (F h q).comp (plane (h a) (h b) (h c))) ++ [coord 0, coord 1, coord 2])
    ![y1, y2, y3, 0] ![k1, k2, k3, 0] (by
      intro g hgm
      rcases List.mem_append.1 hgm with hgm | hgm
      · obtain ⟨q', hq', rfl⟩ := List.mem_map.1 hgm
        change 0 < F h q' (y1 • h a + y2 • h b + y3 • h c) ∨ F h q' (y1 • h a + y2 • h b + y3 • h c) = 0 ∧
          0 < F h q' (k1 • h a + k2 • h b + k3 • h c)
        rcases hy.others (hg.fan.pos _ hS) (mem_twelve.1 hq') with h1 | ⟨h1, h2⟩
        · exact .inl h1
        · refine .inr ⟨h1, ?_⟩
          have cyc (p q r : VId) (x : Vec4 K) : det (h q) (h r) (h p) x = det (h p) (h q) (h r) x := by simp only [det, det3]; ring
          have hpos : 0 < det (h p) (h q) (h r) (k1 • h a + k2 • h b + k3 • h c) := hpos
          rcases h2 with rfl | rfl | rfl
          · exact hpos
          · change 0 < det (h q) (h r) (h p) _
            rw [cyc]; exact hpos
          · change 0 < det (h r) (h p) (h q) _
            rw [cyc, cyc]; exact hpos
      · left
        simp only [List.mem_cons, List.not_mem_nil, or_false] at hgm
        rcases hgm with rfl | rfl | rfl <;> assumption)
  have hsm := hsm e he le_rfl
  have c0 := hsm (coord 0) (by simp)
  have c1 := hsm (coord 1) (by simp)
  have c2 := hsm (coord 2) (by simp)
  refine ⟨plane (h a) (h b) (h c) (![y1, y2, y3, 0] + e • ![k1, k2, k3, 0]), Cell_iff.2 fun q' hq' => ?_, _, _, _, c0, c1, c2, rfl⟩
  exact hsm _ (List.mem_append_left _ (List.mem_map.2 ⟨q', mem_twelve.2 hq', rfl⟩))

/-- A number that can be balanced by two numbers with different signs. -/
theorem balance {u v : K} (huv : u * v < 0) (f : K) : ∃ k l : K, 0 ≤ k ∧ 0 ≤ l ∧ f + k * u + l * v = 0 := by
  have hu : u ≠ 0 := by rintro rfl; simp at huv
  have hv : v ≠ 0 := by rintro rfl; simp at huv
  by_cases h1 : f * u ≤ 0
  · refine ⟨-(f * u) * (u⁻¹ * u⁻¹), 0, mul_nonneg (by linarith) (mul_self_nonneg _), le_rfl, ?_⟩
    have : u⁻¹ * u = 1 := inv_mul_cancel₀ hu
    linear_combination (-f * (u⁻¹ * u + 1)) * this
  · refine ⟨0, -(f * v) * (v⁻¹ * v⁻¹), le_rfl, mul_nonneg ?_ (mul_self_nonneg _), ?_⟩
    · by_contra h2
      have h3 := mul_pos (not_le.1 h1) (by linarith : 0 < f * v)
      have h4 := mul_nonneg (mul_self_nonneg f) (by linarith : 0 ≤ -(u * v))
      nlinarith
    · have : v⁻¹ * v = 1 := inv_mul_cancel₀ hv
      linear_combination (-f * (v⁻¹ * v + 1)) * this

/-- Next to where an edge goes through the triangle. -/
theorem Pierces.near {u v r s : VId} (hp : Pierces h a b c u v) (hD : 0 < D h (u, v, r, s)) (Fs : List (Vec4 K →ₗ[K] K))
    (hF : ∀ f ∈ Fs, f (h a) ≠ 0 ∨ f (h b) ≠ 0 ∨ f (h c) ≠ 0) :
    ∃ y, Cell h (u, v, r, s) y ∧ InTri (h a) (h b) (h c) y ∧ ∀ f ∈ Fs, f y ≠ 0 := by
  have ho := hp.opposite
  obtain ⟨⟨t, t0, t1, y1, y2, y3, i1, i2, i3, hx⟩, hn⟩ := hp
  obtain ⟨k, l, hk, hl, hkl⟩ := balance ho (D h (a, b, c, r) + D h (a, b, c, s))
  have hz : det (h a) (h b) (h c) (h r + h s + k • h u + l • h v) = 0 := by
    simp only [det_add, det_smul]
    exact hkl
  obtain ⟨z1, z2, z3, hz⟩ := in_span (e := h u) hn hz
  have ht : Towards h (u, v, r, s) (pt h u v t) (h r + h s + k • h u + l • h v) := by
    rintro ⟨q1, q2, q3, q4⟩ hq
    obtain ⟨a0, -⟩ := corner_nonneg (v := u) hD hq (by simp)
    obtain ⟨a1, -⟩ := corner_nonneg (v := v) hD hq (by simp)
    have h1 := Towards.edge hD (by linarith : 0 < 1 - t) t0 _ hq
    rw [show (1 - t) • h u + t • h v = pt h u v t by simp only [pt]; module] at h1
    refine h1.imp id fun h2 => ⟨h2.1, ?_⟩
    rw [map_add, map_add (F h (q1, q2, q3, q4)) (h r + h s), map_smul, map_smul, smul_eq_mul, smul_eq_mul]
    have := mul_nonneg hk a0
    have := mul_nonneg hl a1
    linarith [h2.2]
  obtain ⟨w, hw1, hw2⟩ := near_small (Fs.map fun f => f.comp (plane (h a) (h b) (h c)))
    ((twelve (u, v, r, s)).map (fun q => (F h q).comp (plane (h a) (h b) (h c))) ++ [coord 0, coord 1, coord 2])
    ![y1, y2, y3, 0] ![z1, z2, z3, 0] (by
      intro f hfm h0
      obtain ⟨g, hgm, rfl⟩ := List.mem_map.1 hfm
      rcases hF g hgm with h1 | h1 | h1
      · exact h1 (by simpa [plane_apply] using LinearMap.congr_fun h0 ![1, 0, 0, 0])
      · exact h1 (by simpa [plane_apply] using LinearMap.congr_fun h0 ![0, 1, 0, 0])
      · exact h1 (by simpa [plane_apply] using LinearMap.congr_fun h0 ![0, 0, 1, 0])) (by
      intro g hgm
      rcases List.mem_append.1 hgm with hgm | hgm
      · obtain ⟨q', hq', rfl⟩ := List.mem_map.1 hgm
        change 0 < F h q' (y1 • h a + y2 • h b + y3 • h c) ∨ F h q' (y1 • h a + y2 • h b + y3 • h c) = 0 ∧
          0 < F h q' (z1 • h a + z2 • h b + z3 • h c)
        rw [← hx, ← hz]
        exact ht q' (mem_twelve.1 hq')
      · left
        simp only [List.mem_cons, List.not_mem_nil, or_false] at hgm
        rcases hgm with rfl | rfl | rfl <;> assumption)
  refine ⟨plane (h a) (h b) (h c) w, Cell_iff.2 fun q' hq' => ?_, ⟨_, _, _, hw2 (coord 0) (by simp), hw2 (coord 1) (by simp),
    hw2 (coord 2) (by simp), rfl⟩, fun f hfm => hw1 _ (List.mem_map_of_mem hfm)⟩
  exact hw2 _ (List.mem_append_left _ (List.mem_map.2 ⟨q', mem_twelve.2 hq', rfl⟩))

/-- A triangle of a tet that meets the triangle has an edge that goes through it. -/
theorem Frame.face (hf : Frame h wt S a b c) (hg : Generic h wt S P) {p q r w : VId} (hS : S (p, q, r, w)) {y : Vec4 K}
    (hy : InTri (h p) (h q) (h r) y) (hi : InTri (h a) (h b) (h c) y) :
    D h (a, b, c, p) * D h (a, b, c, q) < 0 ∨ D h (a, b, c, q) * D h (a, b, c, r) < 0 ∨ D h (a, b, c, r) * D h (a, b, c, p) < 0 := by
  obtain ⟨pa, pb, pc, dab, dbc, dac⟩ := hf.verts hg
  obtain ⟨pp, pq, pr, -⟩ := hg.verts _ _ _ _ hS
  obtain ⟨d1, d2, -, d3, -⟩ := hg.dist hS
  obtain ⟨y1, y2, y3, -, -, -, hiy⟩ := hi
  obtain ⟨l1, l2, l3, j1, j2, j3, rfl⟩ := hy
  have h0 : det (h a) (h b) (h c) (l1 • h p + l2 • h q + l3 • h r) = 0 := by
    rw [hiy]
    simp only [det_add, det_smul, self0, self1, self2, mul_zero, add_zero]
  simp only [det_add, det_smul] at h0
  have h0 : l1 * D h (a, b, c, p) + l2 * D h (a, b, c, q) + l3 * D h (a, b, c, r) = 0 := h0
  have hne : ¬ (D h (a, b, c, p) = 0 ∧ D h (a, b, c, q) = 0 ∧ D h (a, b, c, r) = 0) := by
    rintro ⟨n1, n2, n3⟩
    have m1 := hg.in_plane pa pb pc pp dab dac dbc n1
    have m2 := hg.in_plane pa pb pc pq dab dac dbc n2
    have m3 := hg.in_plane pa pb pc pr dab dac dbc n3
    refine hf.not_all hg hS ?_ ?_ ?_ <;> rcases m1 with rfl | rfl | rfl <;> rcases m2 with rfl | rfl | rfl <;>
      rcases m3 with rfl | rfl | rfl <;> simp_all
  generalize D h (a, b, c, p) = x1 at *
  generalize D h (a, b, c, q) = x2 at *
  generalize D h (a, b, c, r) = x3 at *
  by_contra hcon
  simp only [not_or, not_lt] at hcon
  obtain ⟨m1, m2, m3⟩ := hcon
  -- all have the same sign
  have key : ∀ {x1 x2 x3 l1 l2 l3 : K}, 0 < l1 → 0 < l2 → 0 < l3 → l1 * x1 + l2 * x2 + l3 * x3 = 0 → 0 ≤ x1 * x2 → 0 ≤ x3 * x1 → x1 = 0 := by
    intro x1 x2 x3 l1 l2 l3 j1 j2 j3 h0 m1 m3
    by_contra hx
    have a1 := mul_pos j1 (mul_self_pos.2 hx)
    have a2 := mul_nonneg j2.le m1
    have a3 := mul_nonneg j3.le m3
    have : x1 * (l1 * x1 + l2 * x2 + l3 * x3) = 0 := by rw [h0, mul_zero]
    nlinarith
  have n1 := key j1 j2 j3 h0 m1 m3
  have n2 := key j2 j3 j1 (by linear_combination h0) m2 m1
  have n3 := key j3 j1 j2 (by linear_combination h0) m3 m2
  exact hne ⟨n1, n2, n3⟩

/-- The edges of a tet that go through the triangle are next to each other. -/
theorem Frame.spread (hf : Frame h wt S a b c) (hg : Generic h wt S P) {L : VId → VId → Prop} (hsym : ∀ u v, L u v → L v u)
    (hL : ∀ x y z w, S (x, y, z, w) ∨ S (y, x, z, w) → L x y → Pierces h a b c y z → L y z) {u v r s : VId} (hS : S (u, v, r, s))
    {y : Vec4 K} (hy : Cell h (u, v, r, s) y) (hi : InTri (h a) (h b) (h c) y) (hp : Pierces h a b c u v) (h1 : L u v)
    {u' v' r' s' : VId} (hs : SameTet (u, v, r, s) (u', v', r', s')) (hp' : Pierces h a b c u' v') : L u' v' := by
  have t (q : V4) (hq : q ∈ twelve (u, v, r, s)) : S q := hg.fan.closed _ _ hS (mem_twelve.1 hq)
  have e2 : Pierces h a b c v r → L v r := fun hh => hL u v r s (.inl hS) h1 hh
  have e3 : Pierces h a b c u r → L u r := fun hh => hL v u r s (.inr hS) (hsym _ _ h1) hh
  have e4 : Pierces h a b c v s → L v s := fun hh => hL u v s r (.inr (t (v, u, s, r) (by simp [twelve]))) h1 hh
  have e5 : Pierces h a b c u s → L u s := fun hh => hL v u s r (.inl (t (v, u, s, r) (by simp [twelve]))) (hsym _ _ h1) hh
  have e6 : Pierces h a b c r s → L r s := by
    intro hh
    have o1 := hp.opposite
    have o2 := hh.opposite
    by_cases o3 : D h (a, b, c, v) * D h (a, b, c, r) < 0
    · have hs : SameTet (u, v, r, s) (v, r, u, s) := mem_twelve.1 (by simp [twelve])
      have := e2 (hf.pierces hg (hg.fan.closed _ _ hS hs) ((Cell_same hs).2 hy) hi o3)
      exact hL v r s u (.inr (t (r, v, s, u) (by simp [twelve]))) this hh
    · have o4 : D h (a, b, c, v) * D h (a, b, c, s) < 0 := by
        by_contra o4
        have hv : D h (a, b, c, v) ≠ 0 := fun h0 => by rw [h0, mul_zero] at o1; exact lt_irrefl _ o1
        have k1 := mul_nonneg (not_lt.1 o3) (not_lt.1 o4)
        have k2 := mul_pos (mul_self_pos.2 hv) (neg_pos.2 o2)
        nlinarith
      have hs : SameTet (u, v, r, s) (v, s, r, u) := mem_twelve.1 (by simp [twelve])
      have := e4 (hf.pierces hg (hg.fan.closed _ _ hS hs) ((Cell_same hs).2 hy) hi o4)
      exact hsym _ _ (hL v s r u (.inl (t (v, s, r, u) (by simp [twelve]))) this hh.swap)
  have e7 : ∀ {p q}, (Pierces h a b c p q → L p q) → Pierces h a b c q p → L q p := fun hh hk => hsym _ _ (hh hk.swap)
  rw [← mem_twelve] at hs
  simp only [twelve, List.mem_cons, List.not_mem_nil, or_false, Prod.mk.injEq] at hs
  clear t hL
  rcases hs with ⟨rfl, rfl, rfl, rfl⟩ | ⟨rfl, rfl, rfl, rfl⟩ | ⟨rfl, rfl, rfl, rfl⟩ | ⟨rfl, rfl, rfl, rfl⟩ | ⟨rfl, rfl, rfl, rfl⟩ |
    ⟨rfl, rfl, rfl, rfl⟩ | ⟨rfl, rfl, rfl, rfl⟩ | ⟨rfl, rfl, rfl, rfl⟩ | ⟨rfl, rfl, rfl, rfl⟩ | ⟨rfl, rfl, rfl, rfl⟩ |
    ⟨rfl, rfl, rfl, rfl⟩ | ⟨rfl, rfl, rfl, rfl⟩
  all_goals first
    | exact h1
    | exact hsym _ _ h1
    | exact e2 hp'
    | exact e3 hp'
    | exact e4 hp'
    | exact e5 hp'
    | exact e6 hp'
    | exact e7 e2 hp'
    | exact e7 e3 hp'
    | exact e7 e4 hp'
    | exact e7 e5 hp'
    | exact e7 e6 hp'

variable {ids : Finset Nat} {Q : Nat → V4}

/-- All edges that go through the triangle can be reached from one of them. -/
theorem Frame.all (hgl : Glued ids Q) (hg : Generic h wt (Shown ids Q) P) (hf : Frame h wt (Shown ids Q) a b c)
    {L : VId → VId → Prop} (hsym : ∀ u v, L u v → L v u)
    (hL : ∀ x y z w, Shown ids Q (x, y, z, w) ∨ Shown ids Q (y, x, z, w) → L x y → Pierces h a b c y z → L y z)
    {u v r s u' v' r' s' : VId} (hS : Shown ids Q (u, v, r, s)) (hp : Pierces h a b c u v) (h1 : L u v)
    (hS' : Shown ids Q (u', v', r', s')) (hp' : Pierces h a b c u' v') : L u' v' := by
  classical
  have pos : ∀ k ∈ ids, 0 < D h (Q k) := fun k hk => hg.fan.pos _ ⟨k, hk, mem_twelve.1 (by simp [twelve])⟩
  obtain ⟨pa, pb, pc, dab, dbc, dac⟩ := hf.verts hg
  have hoff : ∀ f ∈ faceList h ids Q, f (h a) ≠ 0 ∨ f (h b) ≠ 0 ∨ f (h c) ≠ 0 := by
    intro f hfm
    obtain ⟨q, hq, rfl⟩ := mem_faceList.1 hfm
    exact hf.off hg hq
  obtain ⟨k, hk, hkS⟩ := hS
  obtain ⟨k', hk', hkS'⟩ := hS'
  obtain ⟨x, cx, ix, hx⟩ := hp.near (r := r) (s := s) (hg.fan.pos _ ⟨k, hk, hkS⟩) _ hoff
  have hxf : Free h (Shown ids Q) x := fun q hq => hx _ (mem_faceList.2 ⟨q, hq, rfl⟩)
  have hall : ∀ q, q ∈ full ((ids.sort (· ≤ ·)).map Q) ↔ Shown ids Q q := by
    intro q
    simp only [List.mem_map, mem_full, Shown, exists_exists_and_eq_and, Finset.mem_sort]
  -- edges with a vertex in another plane
  let Es := (full ((ids.sort (· ≤ ·)).map Q)).filter fun q => decide (D h (a, b, c, q.1) ≠ 0 ∨ D h (a, b, c, q.2.1) ≠ 0)
  obtain ⟨y, cy, iy, hy⟩ := hp'.near (r := r') (s := s') (hg.fan.pos _ ⟨k', hk', hkS'⟩)
    (faceList h ids Q ++ Es.map fun q => fun3 (h q.1) (h q.2.1) x) (by
      intro f hfm
      rcases List.mem_append.1 hfm with hfm | hfm
      · exact hoff f hfm
      · obtain ⟨⟨p, q, z, w⟩, hq, rfl⟩ := List.mem_map.1 hfm
        obtain ⟨hq, hn⟩ := List.mem_filter.1 hq
        have hn : D h (a, b, c, p) ≠ 0 ∨ D h (a, b, c, q) ≠ 0 := by simpa using hn
        have h1 := hxf _ ((hall _).1 hq)
        by_contra hcon
        simp only [not_or, not_not] at hcon
        obtain ⟨z1, z2, z3⟩ := hcon
        have h3 : fun3 (h p) (h q) x (h z) ≠ 0 := by
          intro h0
          refine h1 ?_
          change det (h p) (h q) (h z) x = 0
          rw [swap2, show det (h p) (h q) x (h z) = 0 from h0, neg_zero]
        have fin : ∀ e, det (h a) (h b) (h c) (h e) ≠ 0 → fun3 (h p) (h q) x (h e) = 0 → False := by
          intro e he h0
          obtain ⟨k1, k2, k3, k4, hk⟩ := basis he (h z)
          refine h3 ?_
          rw [hk]
          simp only [map_add, map_smul, z1, z2, z3, h0, smul_zero, add_zero]
        rcases hn with hn | hn
        · exact fin p hn (self0 ..)
        · exact fin q hn (self1 ..))
  have hyf : Free h (Shown ids Q) y := fun q hq => hy _ (List.mem_append_left _ (mem_faceList.2 ⟨q, hq, rfl⟩))
  let N : Vec4 K → Prop := InTri (h a) (h b) (h c)
  have hN : ∀ t : K, 0 ≤ t → t ≤ 1 → N (x + t • (y - x)) := by
    obtain ⟨x1, x2, x3, i1, i2, i3, rfl⟩ := ix
    obtain ⟨y1, y2, y3, j1, j2, j3, rfl⟩ := iy
    intro t t0 t1
    have mix : ∀ {p q : K}, 0 < p → 0 < q → 0 < p + t * (q - p) := by
      intro p q hp hq
      rcases t0.lt_or_eq with t0 | rfl
      · have := mul_nonneg (by linarith : 0 ≤ 1 - t) hp.le
        have := mul_pos t0 hq
        linarith
      · linarith
    exact ⟨_, _, _, mix i1 j1, mix i2 j2, mix i3 j3, by module⟩
  have hav : Avoids h (Shown ids Q) x y := by
    intro p q z w hq
    by_cases hn : D h (a, b, c, p) ≠ 0 ∨ D h (a, b, c, q) ≠ 0
    · have hd : det (h p) (h q) x y ≠ 0 := hy _ (List.mem_append_right _ (List.mem_map.2 ⟨(p, q, z, w),
        List.mem_filter.2 ⟨(hall _).2 hq, by simpa using hn⟩, rfl⟩))
      exact Clear.avoids (h := h) (S := fun q' => q' = (p, q, z, w)) (by rintro _ _ _ _ ⟨⟩; exact hd) p q z w rfl
    · simp only [not_or, not_not] at hn
      obtain ⟨pp, pq, -⟩ := hg.verts _ _ _ _ hq
      have hpq := (hg.dist hq).1
      have m1 := hg.in_plane pa pb pc pp dab dac dbc hn.1
      have m2 := hg.in_plane pa pb pc pq dab dac dbc hn.2
      intro t t0 t1 l1 l2 he
      obtain ⟨k1, k2, k3, i1, i2, i3, hi⟩ := hN t t0 t1
      rw [hi] at he
      have hu : det (h a) (h b) (h c) (h u) ≠ 0 := hp.2
      -- the third vertex
      have fin : ∀ g : Vec4 K →ₗ[K] K, g (h p) = 0 → g (h q) = 0 → g (k1 • h a + k2 • h b + k3 • h c) = 0 := by
        intro g g1 g2
        rw [he, map_add, map_smul, map_smul, g1, g2, smul_zero, smul_zero, add_zero]
      have f1 := fin (fun3 (h a) (h b) (h u))
      have f2 := fin (fun3 (h b) (h c) (h u))
      have f3 := fin (fun3 (h c) (h a) (h u))
      simp only [fun3_apply, det_add, det_smul, self0, self1, mul_zero, zero_add, add_zero] at f1 f2 f3
      have c1 : det (h a) (h b) (h u) (h c) = -det (h a) (h b) (h c) (h u) := swap2 ..
      have c2 : det (h b) (h c) (h u) (h a) = -det (h a) (h b) (h c) (h u) := by simp only [det, det3]; ring
      have c3 : det (h c) (h a) (h u) (h b) = -det (h a) (h b) (h c) (h u) := by simp only [det, det3]; ring
      rw [c1] at f1
      rw [c2] at f2
      rw [c3] at f3
      have no : ∀ {k : K}, 0 < k → k * -det (h a) (h b) (h c) (h u) = 0 → False := fun hk h0 =>
        (mul_eq_zero.1 h0).elim hk.ne' fun h1 => hu (neg_eq_zero.1 h1)
      rcases m1 with e1 | e1 | e1 <;> rcases m2 with e2 | e2 | e2 <;> rw [e1, e2] at f1 f2 f3 hpq
      · exact hpq rfl
      · exact no i3 (f1 (self0 ..) (self1 ..))
      · exact no i2 (f3 (self1 ..) (self0 ..))
      · exact no i3 (f1 (self1 ..) (self0 ..))
      · exact hpq rfl
      · exact no i1 (f2 (self0 ..) (self1 ..))
      · exact no i2 (f3 (self0 ..) (self1 ..))
      · exact no i1 (f2 (self1 ..) (self0 ..))
      · exact hpq rfl
  let Inv : Nat → Prop := fun k => ∀ u v r s, SameTet (Q k) (u, v, r, s) → Pierces h a b c u v → L u v
  have tr : ∀ {k p}, k ∈ ids → SameTet (Q k) p → Shown ids Q p := fun hk hp => ⟨_, hk, hp⟩
  obtain ⟨k2, hk2, c2, hr⟩ := hgl.walk pos hyf (N := N) (R := fun k k' => Inv k → Inv k') (by
    intro k hk k' hk' p q z d d' x hs hs' hin hNx hinv
    have step : ∀ {u v r s r' s'}, SameTet (Q k) (u, v, r, s) → SameTet (Q k') (u, v, r', s') →
        D h (a, b, c, u) * D h (a, b, c, v) < 0 → Inv k' := by
      intro u v r s r' s' j1 j2 ho u2 v2 r2 s2 j3 j4
      obtain ⟨y1, i1, i2⟩ := hf.inside hg (tr hk hs) hin hNx
      have hpi := hf.pierces hg (tr hk j1) ((Cell_same (SameTet.trans' (SameTet.symm' hs) j1)).2 i1) i2 ho
      have hin' : InTri (h q) (h p) (h z) x := by
        obtain ⟨l1, l2, l3, b1, b2, b3, rfl⟩ := hin
        exact ⟨l2, l1, l3, b2, b1, b3, by module⟩
      obtain ⟨y2, i3, i4⟩ := hf.inside hg (tr hk' hs') hin' hNx
      exact hf.spread hg hsym hL (tr hk' j2) ((Cell_same (SameTet.trans' (SameTet.symm' hs') j2)).2 i3) i4 hpi
        (hinv _ _ _ _ j1 hpi) (SameTet.trans' (SameTet.symm' j2) j3) j4
    have t (p' : V4) (hq : p' ∈ twelve (p, q, z, d)) : SameTet (Q k) p' := SameTet.trans' hs (mem_twelve.1 hq)
    have t' (p' : V4) (hq : p' ∈ twelve (q, p, z, d')) : SameTet (Q k') p' := SameTet.trans' hs' (mem_twelve.1 hq)
    rcases hf.face hg (tr hk hs) hin hNx with ho | ho | ho
    · exact step (t (p, q, z, d) (by simp [twelve])) (t' (p, q, d', z) (by simp [twelve])) ho
    · exact step (t (q, z, p, d) (by simp [twelve])) (t' (q, z, d', p) (by simp [twelve])) ho
    · exact step (t (z, p, q, d) (by simp [twelve])) (t' (z, p, d', q) (by simp [twelve])) ho) _ x hxf hav hN rfl k hk ((Cell_same hkS).1 cx)
  have wy : 0 < wt y := by
    obtain ⟨y1, y2, y3, j1, j2, j3, rfl⟩ := iy
    simp only [map_add, map_smul, smul_eq_mul]
    have := mul_pos j1 hf.wa
    have := mul_pos j2 hf.wb
    have := mul_pos j3 hf.wc
    linarith
  have e : k2 = k' := by
    have hs := hg.fan.two wy hyf (tr hk2 (mem_twelve.1 (by simp [twelve]))) (tr hk' (mem_twelve.1 (by simp [twelve]))) c2 ((Cell_same hkS').1 cy)
    exact hgl.uniq k2 hk2 k' hk' _ _ _ _ _ (SameTet.trans' hs hkS') hkS'
  subst e
  have inv0 : Inv k := fun u2 v2 r2 s2 j3 j4 =>
    hf.spread hg hsym hL (tr hk hkS) cx ix hp h1 (SameTet.trans' (SameTet.symm' hkS) j3) j4
  have : Inv k2 := by
    clear hkS' hk' cy hk2 c2
    induction hr with
    | refl => exact inv0
    | tail _ hl ih => exact hl ih
  exact this _ _ _ _ hkS' hp'

end Tet
