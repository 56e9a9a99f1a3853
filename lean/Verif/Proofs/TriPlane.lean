import Mathlib.Tactic.LinearCombination
import Mathlib.Tactic.FieldSimp
import Mathlib.Algebra.BigOperators.Group.Finset.Basic
import Mathlib.Algebra.BigOperators.Group.List.Basic
import Verif.Proofs.SteinerSplit
import Verif.Spec.TriSteiner

/-!
# Triangles of the mesh in a plane
-/

namespace Tet
open Spec Vec4
variable {K V T : Type} [Field K] [LinearOrder K] [IsStrictOrderedRing K]

section
variable {h : VId → Vec4 K} {wt : Vec4 K →ₗ[K] K} {S : V4 → Prop}

/-- Next to an edge of a tet. -/
theorem Towards.beside {v0 v1 x y : VId} (hD : 0 < D h (v0, v1, x, y)) {z : Vec4 K} (h1 : 0 < det (h v0) (h v1) (h x) z)
    (h2 : 0 < det (h v1) (h v0) (h y) z) : Towards h (v0, v1, x, y) (h v0 + h v1) z := by
  intro q hq
  have hD' : 0 < det (h v0) (h v1) (h x) (h y) := hD
  rw [← mem_twelve] at hq
  simp only [twelve, List.mem_cons, List.not_mem_nil, or_false] at hq
  rcases hq with rfl | rfl | rfl | rfl | rfl | rfl | rfl | rfl | rfl | rfl | rfl | rfl <;>
    simp only [F, fun3_apply] <;>
    first
    | (left; refine lt_of_lt_of_eq hD' ?_; simp only [det, det3, Pi.add_apply] <;> ring1)
    | (right; refine ⟨?_, lt_of_lt_of_eq h1 ?_⟩ <;> simp only [det, det3, Pi.add_apply] <;> ring1)
    | (right; refine ⟨?_, lt_of_lt_of_eq h2 ?_⟩ <;> simp only [det, det3, Pi.add_apply] <;> ring1)

theorem exists_small {x : K} (hx : 0 < x) (y : K) : ∃ d, 0 < d ∧ 0 < x + d * y := by
  refine ⟨x / (1 + |y|), by positivity, ?_⟩
  have h1 : 0 < 1 + |y| := by positivity
  have h2 : x + x / (1 + |y|) * y = x * (1 + |y| + y) / (1 + |y|) := by field_simp
  rw [h2]
  have := neg_abs_le y
  refine div_pos (mul_pos hx ?_) h1
  linarith

/-- Two tets with triangles at the same edge, in the same plane and on the same side of the edge. -/
theorem Fan.beside (hf : Fan h wt S) {a b c d c' d' : VId} (h1 : S (a, b, c, d)) (h2 : S (a, b, c', d')) (hw : 0 < wt (h a + h b))
    {α β γ : K} (hγ : 0 < γ) (hc : h c' = α • h a + β • h b + γ • h c) : SameTet (a, b, c, d) (a, b, c', d') := by
  have p1 : 0 < det (h a) (h b) (h c) (h d) := hf.pos _ h1
  have p2 : 0 < det (h a) (h b) (h c') (h d') := hf.pos _ h2
  have e1 : ∀ z, det (h a) (h b) (h c') z = γ * det (h a) (h b) (h c) z := by
    intro z
    rw [hc]
    simp only [det, det3, Pi.add_apply, Pi.smul_apply, smul_eq_mul]
    ring
  have e2 : γ * det (h b) (h a) (h d') (h c) = det (h a) (h b) (h c') (h d') := by
    rw [hc]
    simp only [det, det3, Pi.add_apply, Pi.smul_apply, smul_eq_mul]
    ring
  have p3 : 0 < det (h b) (h a) (h d') (h c) := (mul_pos_iff_of_pos_left hγ).1 (e2 ▸ p2)
  obtain ⟨δ, hδ, hs⟩ := exists_small p3 (det (h b) (h a) (h d') (h d))
  have e3 : det (h a) (h b) (h c) (h c + δ • h d) = δ * det (h a) (h b) (h c) (h d) := by
    simp only [det, det3, Pi.add_apply, Pi.smul_apply, smul_eq_mul]
    ring
  refine hf.overlap h1 h2 hw (z := h c + δ • h d) (.beside p1 ?_ ?_) (.beside p2 ?_ ?_)
  · rw [e3]
    exact mul_pos hδ p1
  · refine lt_of_lt_of_eq p1 ?_
    simp only [det, det3, Pi.add_apply, Pi.smul_apply, smul_eq_mul]
    ring
  · rw [e1, e3]
    exact mul_pos hγ (mul_pos hδ p1)
  · rw [det_add, det_smul]
    exact hs

end

/-! ### The plane -/

/-- The point given by coordinates in the plane. -/
def lift2 (X Y Z : Pt K) (u : K × K) : Pt K := ⟨X.x * u.1 + Y.x * u.2 + Z.x, X.y * u.1 + Y.y * u.2 + Z.y, X.z * u.1 + Y.z * u.2 + Z.z⟩

omit [LinearOrder K] [IsStrictOrderedRing K] in
theorem comb3 (ka kb kc : K) (a b c : Pt K) :
    comb [(ka, a), (kb, b), (kc, c)] = ⟨ka * a.x + kb * b.x + kc * c.x, ka * a.y + kb * b.y + kc * c.y, ka * a.z + kb * b.z + kc * c.z⟩ := by
  simp only [comb, Pt.smul, Pt.add, Pt.mk.injEq]
  refine ⟨?_, ?_, ?_⟩ <;> ring

/-- What `Flattens` gives: the projection can be undone. -/
structure Flat (xy : Pt K → K × K) (p0 p1 p2 : Pt K) (X Y Z : Pt K) : Prop where
  affine : ∀ ka kb kc : K, ∀ a b c, ka + kb + kc = 1 → xy (comb [(ka, a), (kb, b), (kc, c)]) =
    (ka * (xy a).1 + kb * (xy b).1 + kc * (xy c).1, ka * (xy a).2 + kb * (xy b).2 + kc * (xy c).2)
  back : ∀ q, OnPlane p0 p1 p2 q → lift2 X Y Z (xy q) = q
  pos : 0 < planeSide (xy p0) (xy p1) (xy p2)

theorem Flattens.flat {xy : Pt K → K × K} {p0 p1 p2 : Pt K} (h : Flattens xy p0 p1 p2) : ∃ X Y Z, Flat xy p0 p1 p2 X Y Z := by
  obtain ⟨⟨f, g, c, d, h1⟩, h2⟩ := h
  have haff : ∀ ka kb kc : K, ∀ a b c, ka + kb + kc = 1 → xy (comb [(ka, a), (kb, b), (kc, c)]) =
      (ka * (xy a).1 + kb * (xy b).1 + kc * (xy c).1, ka * (xy a).2 + kb * (xy b).2 + kc * (xy c).2) := by
    intro ka kb kc a b e hk
    simp only [h1, comb3, Pt.dot, Prod.mk.injEq]
    constructor
    · linear_combination (-c) * hk
    · linear_combination (-d) * hk
  set D := planeSide (xy p0) (xy p1) (xy p2) with hD
  -- the weights are `planeSide u (xy p1) (xy p2) / D` and so on
  let wx : (Pt K → K) → K := fun π => (π p0 * ((xy p1).2 - (xy p2).2) + π p1 * ((xy p2).2 - (xy p0).2) + π p2 * ((xy p0).2 - (xy p1).2)) / D
  let wy : (Pt K → K) → K := fun π => (π p0 * ((xy p2).1 - (xy p1).1) + π p1 * ((xy p0).1 - (xy p2).1) + π p2 * ((xy p1).1 - (xy p0).1)) / D
  let wz : (Pt K → K) → K := fun π => (π p0 * ((xy p1).1 * (xy p2).2 - (xy p2).1 * (xy p1).2) +
    π p1 * ((xy p2).1 * (xy p0).2 - (xy p0).1 * (xy p2).2) + π p2 * ((xy p0).1 * (xy p1).2 - (xy p1).1 * (xy p0).2)) / D
  refine ⟨⟨wx Pt.x, wx Pt.y, wx Pt.z⟩, ⟨wy Pt.x, wy Pt.y, wy Pt.z⟩, ⟨wz Pt.x, wz Pt.y, wz Pt.z⟩, haff, ?_, h2⟩
  rintro q ⟨ka, kb, kc, hk, rfl⟩
  rw [haff _ _ _ _ _ _ hk]
  have key : ∀ π : Pt K → K, wx π * (ka * (xy p0).1 + kb * (xy p1).1 + kc * (xy p2).1) +
      wy π * (ka * (xy p0).2 + kb * (xy p1).2 + kc * (xy p2).2) + wz π = ka * π p0 + kb * π p1 + kc * π p2 := by
    intro π
    simp only [wx, wy, wz]
    have hne : D ≠ 0 := h2.ne'
    obtain rfl : kc = 1 - ka - kb := by linear_combination hk
    field_simp
    rw [hD]
    simp only [planeSide]
    ring
  rw [lift2, comb3]
  simp only [Pt.mk.injEq]
  exact ⟨key _, key _, key _⟩

variable {xy : Pt K → K × K} {p0 p1 p2 X Y Z : Pt K}

/-- Weights of a point in the plane. -/
theorem weights2 {a b c u : K × K} (h : planeSide a b c ≠ 0) : ∃ ka kb kc : K, ka = planeSide b c u / planeSide a b c ∧
    kb = planeSide c a u / planeSide a b c ∧ kc = planeSide a b u / planeSide a b c ∧ ka + kb + kc = 1 ∧
    u = (ka * a.1 + kb * b.1 + kc * c.1, ka * a.2 + kb * b.2 + kc * c.2) := by
  refine ⟨_, _, _, rfl, rfl, rfl, ?_, ?_⟩
  · rw [← add_div, ← add_div, div_eq_one_iff_eq h]
    simp only [planeSide]
    ring
  · refine Prod.ext ?_ ?_
    · simp only
      field_simp
      simp only [planeSide]
      ring
    · simp only
      field_simp
      simp only [planeSide]
      ring

omit [LinearOrder K] [IsStrictOrderedRing K] in
theorem lift2_comb {ka kb kc : K} (hk : ka + kb + kc = 1) (a b c : K × K) :
    lift2 X Y Z (ka * a.1 + kb * b.1 + kc * c.1, ka * a.2 + kb * b.2 + kc * c.2) =
      comb [(ka, lift2 X Y Z a), (kb, lift2 X Y Z b), (kc, lift2 X Y Z c)] := by
  rw [comb3]
  simp only [lift2, Pt.mk.injEq]
  refine ⟨?_, ?_, ?_⟩
  · linear_combination (-Z.x) * hk
  · linear_combination (-Z.y) * hk
  · linear_combination (-Z.z) * hk

/-- Weights of a point of the plane. -/
theorem Flat.weights (hf : Flat xy p0 p1 p2 X Y Z) {a b c q : Pt K} (ha : OnPlane p0 p1 p2 a) (hb : OnPlane p0 p1 p2 b) (hc : OnPlane p0 p1 p2 c)
    (hq : OnPlane p0 p1 p2 q) (h : planeSide (xy a) (xy b) (xy c) ≠ 0) : ∃ ka kb kc : K, ka = planeSide (xy b) (xy c) (xy q) / planeSide (xy a) (xy b) (xy c) ∧
    kb = planeSide (xy c) (xy a) (xy q) / planeSide (xy a) (xy b) (xy c) ∧ kc = planeSide (xy a) (xy b) (xy q) / planeSide (xy a) (xy b) (xy c) ∧
    ka + kb + kc = 1 ∧ comb [(ka, a), (kb, b), (kc, c)] = q := by
  obtain ⟨ka, kb, kc, h1, h2, h3, h4, h5⟩ := weights2 (u := xy q) h
  refine ⟨ka, kb, kc, h1, h2, h3, h4, ?_⟩
  have := lift2_comb (X := X) (Y := Y) (Z := Z) h4 (xy a) (xy b) (xy c)
  rw [← h5, hf.back q hq, hf.back a ha, hf.back b hb, hf.back c hc] at this
  exact this.symm

theorem Flat.side_comb (hf : Flat xy p0 p1 p2 X Y Z) {ka kb kc : K} (hk : ka + kb + kc = 1) (a b c u v : Pt K) :
    planeSide (xy u) (xy v) (xy (comb [(ka, a), (kb, b), (kc, c)])) =
      ka * planeSide (xy u) (xy v) (xy a) + kb * planeSide (xy u) (xy v) (xy b) + kc * planeSide (xy u) (xy v) (xy c) := by
  rw [hf.affine _ _ _ _ _ _ hk]
  simp only [planeSide]
  obtain rfl : kc = 1 - ka - kb := by linear_combination hk
  ring

theorem Flat.inTri (hf : Flat xy p0 p1 p2 X Y Z) {a b c q : Pt K} (ha : OnPlane p0 p1 p2 a) (hb : OnPlane p0 p1 p2 b) (hc : OnPlane p0 p1 p2 c)
    (hq : OnPlane p0 p1 p2 q) (h : 0 < planeSide (xy a) (xy b) (xy c)) : Spec.InTri a b c q ↔
      0 < planeSide (xy a) (xy b) (xy q) ∧ 0 < planeSide (xy b) (xy c) (xy q) ∧ 0 < planeSide (xy c) (xy a) (xy q) := by
  constructor
  · rintro ⟨ka, kb, kc, h1, h2, h3, hk, rfl⟩
    have e1 : planeSide (xy b) (xy c) (xy a) = planeSide (xy a) (xy b) (xy c) := by simp only [planeSide]; ring
    have e2 : planeSide (xy c) (xy a) (xy b) = planeSide (xy a) (xy b) (xy c) := by simp only [planeSide]; ring
    have z : ∀ u v : K × K, planeSide u v u = 0 ∧ planeSide u v v = 0 := fun u v => ⟨by simp only [planeSide]; ring, by simp only [planeSide]; ring⟩
    simp only [hf.side_comb hk, e1, e2, z, mul_zero, add_zero, zero_add]
    exact ⟨mul_pos h3 h, mul_pos h1 h, mul_pos h2 h⟩
  · rintro ⟨h1, h2, h3⟩
    obtain ⟨ka, kb, kc, rfl, rfl, rfl, hk, e⟩ := hf.weights ha hb hc hq h.ne'
    exact ⟨_, _, _, div_pos h2 h, div_pos h3 h, div_pos h1 h, hk, e⟩

omit [IsStrictOrderedRing K] in
theorem Spec.InClosedTri.onPlane {a b c q : Pt K} (h : InClosedTri a b c q) : OnPlane a b c q := by
  obtain ⟨ka, kb, kc, -, -, -, hk, e⟩ := h
  exact ⟨ka, kb, kc, hk, e⟩

omit [IsStrictOrderedRing K] in
theorem Spec.InTri.onPlane {a b c q : Pt K} (h : Spec.InTri a b c q) : OnPlane a b c q := by
  obtain ⟨ka, kb, kc, -, -, -, hk, e⟩ := h
  exact ⟨ka, kb, kc, hk, e⟩

theorem Spec.InTri.closed {a b c q : Pt K} (h : Spec.InTri a b c q) : InClosedTri a b c q := by
  obtain ⟨ka, kb, kc, h1, h2, h3, hk, e⟩ := h
  exact ⟨ka, kb, kc, h1.le, h2.le, h3.le, hk, e⟩

theorem Flat.onLine (hf : Flat xy p0 p1 p2 X Y Z) {a b c q : Pt K} (ha : OnPlane p0 p1 p2 a) (hb : OnPlane p0 p1 p2 b) (hc : OnPlane p0 p1 p2 c)
    (hq : OnPlane p0 p1 p2 q) (h : 0 < planeSide (xy a) (xy b) (xy c)) (h0 : planeSide (xy a) (xy b) (xy q) = 0) : OnLine a b q := by
  obtain ⟨ka, kb, kc, -, -, rfl, hk, e⟩ := hf.weights ha hb hc hq h.ne'
  rw [h0, zero_div, add_zero] at hk
  refine ⟨ka, kb, hk, ?_⟩
  rw [← e, h0, zero_div]
  simp [comb, Pt.smul, Pt.add]

/-- Convexity: a triangle in a triangle. -/
theorem Spec.InClosedTri.trans {a b c q : Pt K} (ha : InClosedTri p0 p1 p2 a) (hb : InClosedTri p0 p1 p2 b) (hc : InClosedTri p0 p1 p2 c)
    (hq : InClosedTri a b c q) : InClosedTri p0 p1 p2 q := by
  obtain ⟨a0, a1, a2, ha0, ha1, ha2, ha, rfl⟩ := ha
  obtain ⟨b0, b1, b2, hb0, hb1, hb2, hb, rfl⟩ := hb
  obtain ⟨c0, c1, c2, hc0, hc1, hc2, hc, rfl⟩ := hc
  obtain ⟨k0, k1, k2, hk0, hk1, hk2, hk, rfl⟩ := hq
  refine ⟨k0 * a0 + k1 * b0 + k2 * c0, k0 * a1 + k1 * b1 + k2 * c1, k0 * a2 + k1 * b2 + k2 * c2, by positivity, by positivity, by positivity, ?_, ?_⟩
  · linear_combination k0 * ha + k1 * hb + k2 * hc + hk
  · simp only [comb3, Pt.mk.injEq]
    refine ⟨?_, ?_, ?_⟩ <;> ring

/-! ### Triangles at the same edge -/

/-- There is only one triangle of the mesh on a side of an edge in a plane. -/
theorem tri_beside {m : Mesh (Pt K) V T} (hs : Sound m) (hf : Flat xy p0 p1 p2 X Y Z) {a b c c' : VId} {pa pb pc pc' : Pt K} (h1 : HasTri m (a, b, c))
    (h2 : HasTri m (a, b, c')) (ha : At m a pa) (hb : At m b pb) (hc : At m c pc) (hc' : At m c' pc') (ia : OnPlane p0 p1 p2 pa)
    (ib : OnPlane p0 p1 p2 pb) (ic : OnPlane p0 p1 p2 pc) (ic' : OnPlane p0 p1 p2 pc') (k1 : 0 < planeSide (xy pa) (xy pb) (xy pc))
    (k2 : 0 < planeSide (xy pa) (xy pb) (xy pc')) : c = c' := by
  obtain ⟨w, hw⟩ := h1
  obtain ⟨w', hw'⟩ := h2
  obtain ⟨d, hd⟩ := tri_tet4 hw
  obtain ⟨d', hd'⟩ := tri_tet4 hw'
  obtain ⟨ka, kb, kc, -, -, hkc, hk, e⟩ := hf.weights ia ib ic ic' k1.ne'
  have hc0 : 0 < kc := by rw [hkc]; exact div_pos k2 k1
  have hsame := (hs.tiles.fan hs.consistent.toT).beside (a := a) (b := b) (c := c) (d := d) (c' := c') (d' := d') ⟨_, hd⟩ ⟨_, hd'⟩ (by
    rw [homv_of_At ha, homv_of_At hb]
    simp [last4, hom]) (α := ka) (β := kb) hc0 (by
    rw [homv_of_At ha, homv_of_At hb, homv_of_At hc, homv_of_At hc', ← e, comb3]
    funext i
    fin_cases i <;> simp [hom, hk])
  have hn := hs.consistent.distinct _ _ _ _ _ hd
  have hn' := hs.consistent.distinct _ _ _ _ _ hd'
  rw [← mem_twelve] at hsame
  simp only [twelve, List.mem_cons, List.not_mem_nil, or_false, Prod.mk.injEq] at hsame
  simp only [List.nodup_cons, List.mem_cons, List.not_mem_nil, or_false, not_or] at hn hn'
  rcases hsame with h | h | h | h | h | h | h | h | h | h | h | h <;> obtain ⟨q1, q2, q3, q4⟩ := h <;>
    first
    | exact q3.symm
    | grind

end Tet
