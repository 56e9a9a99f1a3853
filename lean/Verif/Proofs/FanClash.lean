import Verif.Proofs.FanFlip

/-!
# Flips of tets whose cones cover the half space once do not add what is there already
-/

namespace Tet
open Spec Vec4
variable {K : Type} [Field K] [LinearOrder K] [IsStrictOrderedRing K]
variable {h : VId → Vec4 K} {wt : Vec4 K →ₗ[K] K} {S S' : V4 → Prop}

/-- No vector is in two tets. -/
theorem Fan.two (hf : Fan h wt S) {x : Vec4 K} (hw : 0 < wt x) (hx : Free h S x) {p q : V4} (hp : S p) (hq : S q)
    (h1 : Cell h p x) (h2 : Cell h q x) : SameTet p q := by
  obtain ⟨t, -, -, ht⟩ := hf.once x hw hx
  exact SameTet.trans' (SameTet.symm' (ht p hp h1)) (ht q hq h2)

theorem sameTet_in {a b c d a' b' c' d' v : VId} (hs : SameTet (a, b, c, d) (a', b', c', d'))
    (hv : v = a ∨ v = b ∨ v = c ∨ v = d) : v = a' ∨ v = b' ∨ v = c' ∨ v = d' := by
  rw [← mem_twelve] at hs
  simp only [twelve, List.mem_cons, List.not_mem_nil, or_false, Prod.mk.injEq] at hs
  omega

omit [IsStrictOrderedRing K] in
/-- A combination of vectors one of which may be the ghost. -/
theorem weight3 (hs : Solids h wt) {a b c : VId} {k1 k2 k3 : K} [IsStrictOrderedRing K] (h1 : 0 < k1) (h2 : 0 < k2) (h3 : 0 < k3)
    (ha : a ≠ GHOST) (hb : b ≠ GHOST) (hc : c ≠ GHOST) : 0 < wt (k1 • h a + k2 • h b + k3 • h c) := by
  rw [map_add, map_add, map_smul, map_smul, map_smul, smul_eq_mul, smul_eq_mul, smul_eq_mul]
  have := mul_pos h1 (hs a ha)
  have := mul_pos h2 (hs b hb)
  have := mul_pos h3 (hs c hc)
  linarith

/-- The line through two vertices on different sides of a triangle meets it. -/
theorem crossing (hs : Solids h wt) {a b c d e : VId} (h1 : 0 < D h (a, b, c, d)) (h2 : 0 < D h (b, a, c, e))
    (n1 : 0 < D h (b, a, d, e)) (n2 : 0 < D h (a, c, d, e)) (n3 : 0 < D h (c, b, d, e)) :
    ∃ (y : Vec4 K) (kd ke ka kb kc : K), 0 < kd ∧ 0 < ke ∧ 0 < ka ∧ 0 < kb ∧ 0 < kc ∧ y = kd • h d + ke • h e ∧
      y = ka • h a + kb • h b + kc • h c ∧ 0 < wt y := by
  have key : D h (b, a, c, e) • h d + D h (a, b, c, d) • h e =
      D h (c, b, d, e) • h a + D h (a, c, d, e) • h b + D h (b, a, d, e) • h c := by
    have := Vec4.five (h a) (h b) (h c) (h d) (h e)
    have e1 : D h (c, b, d, e) = -det (h b) (h c) (h d) (h e) := swap0 ..
    have e2 : D h (a, c, d, e) = -det (h c) (h a) (h d) (h e) := swap0 ..
    have e3 : D h (b, a, d, e) = -det (h a) (h b) (h d) (h e) := swap0 ..
    rw [e1, e2, e3]
    simp only [D]
    rw [← sub_eq_zero, ← this]
    module
  refine ⟨_, _, _, _, _, _, h2, h1, n3, n2, n1, rfl, key, ?_⟩
  by_cases hg : d = GHOST ∨ e = GHOST
  · rw [key]
    obtain ⟨-, -, k1, -, k2, k3⟩ := D_nodup h1.ne'
    obtain ⟨-, -, k4, -, k5, k6⟩ := D_nodup h2.ne'
    refine weight3 hs n3 n2 n1 ?_ ?_ ?_ <;> rintro rfl <;> rcases hg with hg | hg
    · exact k1 hg.symm
    · exact k5 hg.symm
    · exact k2 hg.symm
    · exact k4 hg.symm
    · exact k3 hg.symm
    · exact k6 hg.symm
  · push Not at hg
    rw [map_add, map_smul, map_smul, smul_eq_mul, smul_eq_mul]
    exact add_pos (mul_pos h2 (hs d hg.1)) (mul_pos h1 (hs e hg.2))

/-- The four faces at an edge, close to the edge. -/
theorem edge_faces {d e u v : VId} (hd : 0 < D h (d, e, u, v)) {y : Vec4 K} {kd ke : K} (h1 : 0 < kd) (h2 : 0 < ke)
    (hy : y = kd • h d + ke • h e) {g : Vec4 K →ₗ[K] K}
    (hg : g ∈ [F h (d, e, u, v), F h (d, v, e, u), F h (d, u, v, e), F h (e, v, u, d)]) :
    0 < g y ∨ g y = 0 ∧ 0 < g (h u + h v) := by
  have hd : 0 < det (h d) (h e) (h u) (h v) := hd
  simp only [List.mem_cons, List.not_mem_nil, or_false] at hg
  rw [hy]
  rcases hg with rfl | rfl | rfl | rfl
  · right
    simp only [F, fun3_apply, det_add, det_smul, self0, self1, self2]
    exact ⟨by ring, by linarith⟩
  · right
    simp only [F, fun3_apply, det_add, det_smul, self0, self1, self2]
    exact ⟨by ring, by rw [show det (h d) (h v) (h e) (h u) = det (h d) (h e) (h u) (h v) by simp only [det, det3]; ring]; linarith⟩
  · left
    simp only [F, fun3_apply, det_add, det_smul, self0, self1, self2]
    rw [show det (h d) (h u) (h v) (h e) = det (h d) (h e) (h u) (h v) by simp only [det, det3]; ring]
    have := mul_pos h2 hd
    linarith
  · left
    simp only [F, fun3_apply, det_add, det_smul, self0, self1, self2]
    rw [show det (h e) (h v) (h u) (h d) = det (h d) (h e) (h u) (h v) by simp only [det, det3]; ring]
    have := mul_pos h1 hd
    linarith

/-- The other faces at a triangle, close to the triangle. -/
theorem tri_faces {a b c d : VId} (hd : 0 < D h (a, b, c, d)) {y : Vec4 K} {ka kb kc : K} (h1 : 0 < ka) (h2 : 0 < kb)
    (h3 : 0 < kc) (hy : y = ka • h a + kb • h b + kc • h c) :
    F h (a, b, c, d) y = 0 ∧ 0 < F h (a, d, b, c) y ∧ 0 < F h (a, c, d, b) y ∧ 0 < F h (b, d, c, a) y := by
  have hd : 0 < det (h a) (h b) (h c) (h d) := hd
  rw [hy]
  simp only [F, fun3_apply, det_add, det_smul, self0, self1, self2]
  generalize h d = d at *
  generalize h a = a at *
  generalize h b = b at *
  generalize h c = c at *
  have m1 := mul_pos h1 hd
  have m2 := mul_pos h2 hd
  have m3 := mul_pos h3 hd
  rw [show det a d b c = det a b c d by simp only [det, det3]; ring, show det a c d b = det a b c d by simp only [det, det3]; ring,
    show det b d c a = det a b c d by simp only [det, det3]; ring]
  exact ⟨by ring, by linarith, by linarith, by linarith⟩

theorem Fan.clash23 (hf : Fan h wt S) (hs : Solids h wt) {a b c d e : VId} (h1 : S (a, b, c, d)) (h2 : S (b, a, c, e))
    (n1 : 0 < D h (b, a, d, e)) (n2 : 0 < D h (a, c, d, e)) (n3 : 0 < D h (c, b, d, e)) {u v : VId} (hde : S (d, e, u, v)) :
    False := by
  have p1 := hf.pos _ h1
  have p2 := hf.pos _ h2
  obtain ⟨y, kd, ke, ka, kb, kc, i1, i2, i3, i4, i5, y1, y2, hw⟩ := crossing hs p1 p2 n1 n2 n3
  obtain ⟨-, t1, t2, t3⟩ := tri_faces p1 i3 i4 i5 y2
  obtain ⟨-, s1, s2, s3⟩ := tri_faces p2 i4 i3 i5 (y := y) (by rw [y2]; module)
  obtain ⟨x, x1, x2⟩ := near_free (h := h) (S := S) (y := y) (z := h u + h v)
    (G := wt :: F h (a, d, b, c) :: F h (a, c, d, b) :: F h (b, d, c, a) :: F h (b, e, a, c) :: F h (b, c, e, a) ::
      F h (a, e, c, b) :: [F h (d, e, u, v), F h (d, v, e, u), F h (d, u, v, e), F h (e, v, u, d)]) hf.fin hf.pos (by
      intro g hg
      rw [List.mem_cons, List.mem_cons, List.mem_cons, List.mem_cons, List.mem_cons, List.mem_cons, List.mem_cons] at hg
      rcases hg with rfl | rfl | rfl | rfl | rfl | rfl | rfl | hg
      · exact .inl hw
      · exact .inl t1
      · exact .inl t2
      · exact .inl t3
      · exact .inl s1
      · exact .inl s2
      · exact .inl s3
      · exact edge_faces (hf.pos _ hde) i1 i2 y1 hg)
  have hc : Cell h (d, e, u, v) x := ⟨x2 (F h (d, e, u, v)) (by simp), x2 (F h (d, v, e, u)) (by simp),
    x2 (F h (d, u, v, e)) (by simp), x2 (F h (e, v, u, d)) (by simp)⟩
  have hwx := x2 wt (by simp)
  obtain ⟨-, -, -, -, k1, k2⟩ := D_nodup n1.ne'
  obtain ⟨-, -, k3, -, k4, k5⟩ := D_nodup p1.ne'
  obtain ⟨-, -, k6, -, k7, k8⟩ := D_nodup p2.ne'
  rcases lt_or_gt_of_ne (x1 _ h1) with hl | hl
  · have hc2 : Cell h (b, a, c, e) x := by
      refine ⟨?_, x2 (F h (b, e, a, c)) (by simp), x2 (F h (b, c, e, a)) (by simp), x2 (F h (a, e, c, b)) (by simp)⟩
      have hl : det (h a) (h b) (h c) x < 0 := hl
      show 0 < det (h b) (h a) (h c) x
      rw [swap0]
      linarith
    rcases sameTet_in (v := d) (hf.two hwx x1 hde h2 hc hc2) (by simp) with rfl | rfl | rfl | rfl
    · exact k4 rfl
    · exact k3 rfl
    · exact k5 rfl
    · exact k2 rfl
  · have hc2 : Cell h (a, b, c, d) x :=
      ⟨hl, x2 (F h (a, d, b, c)) (by simp), x2 (F h (a, c, d, b)) (by simp), x2 (F h (b, d, c, a)) (by simp)⟩
    rcases sameTet_in (v := e) (hf.two hwx x1 hde h1 hc hc2) (by simp) with rfl | rfl | rfl | rfl
    · exact k7 rfl
    · exact k6 rfl
    · exact k8 rfl
    · exact k2 rfl

theorem Fan.clash32 (hf : Fan h wt S) (hs : Solids h wt) {x y c d e : VId} (h1 : S (x, y, c, d)) (h2 : S (x, y, d, e))
    (h3 : S (x, y, e, c)) (n1 : 0 < D h (d, c, e, x)) (n2 : 0 < D h (c, d, e, y)) {v : VId} (hdce : S (d, c, e, v)) :
    False := by
  have t (p q : V4) (hq : q ∈ twelve p) : SameTet p q := mem_twelve.1 hq
  have u (p q : V4) (hp : 0 < D h p) (hq : q ∈ twelve p) : 0 < D h q := by rwa [D_same (t p q hq)]
  obtain ⟨z, kd, ke, ka, kb, kc, i1, i2, i3, i4, i5, y1, y2, hw⟩ := crossing hs n1 n2
    (u _ (c, d, x, y) (hf.pos _ h1) (by simp [twelve])) (u _ (d, e, x, y) (hf.pos _ h2) (by simp [twelve]))
    (u _ (e, c, x, y) (hf.pos _ h3) (by simp [twelve]))
  have pv := hf.pos _ hdce
  obtain ⟨-, t1, t2, t3⟩ := tri_faces n1 i3 i4 i5 y2
  obtain ⟨s0, s1, s2, s3⟩ := tri_faces pv i3 i4 i5 y2
  obtain ⟨w, x1, x2⟩ := near_free (h := h) (S := S) (y := z) (z := h v)
    (G := [wt, F h (d, x, c, e), F h (d, e, x, c), F h (c, x, e, d), F h (d, c, e, v), F h (d, v, c, e), F h (d, e, v, c),
      F h (c, v, e, d)]) hf.fin hf.pos (by
      intro g hg
      simp only [List.mem_cons, List.not_mem_nil, or_false] at hg
      rcases hg with rfl | rfl | rfl | rfl | rfl | rfl | rfl | rfl
      · exact .inl hw
      · exact .inl t1
      · exact .inl t2
      · exact .inl t3
      · exact .inr ⟨s0, pv⟩
      · exact .inl s1
      · exact .inl s2
      · exact .inl s3)
  have h0 := x2 (F h (d, c, e, v)) (by simp)
  have hc : Cell h (d, c, e, v) w := ⟨h0, x2 (F h (d, v, c, e)) (by simp), x2 (F h (d, e, v, c)) (by simp),
    x2 (F h (c, v, e, d)) (by simp)⟩
  have hc1 : Cell h (d, c, e, x) w := ⟨h0, x2 (F h (d, x, c, e)) (by simp), x2 (F h (d, e, x, c)) (by simp),
    x2 (F h (c, x, e, d)) (by simp)⟩
  have hwx := x2 wt (by simp)
  obtain ⟨k1, k2, k3, k4, k5, k6⟩ := D_nodup n1.ne'
  obtain ⟨-, -, k7, -, k8, k9⟩ := D_nodup n2.ne'
  rcases (fill32 hf h1 h2 h3 n1 n2 x1 h0.ne').2 (.inl hc1) with hl | hl | hl
  · have := sameTet_in (v := e) (hf.two hwx x1 hdce h1 hc hl) (by simp)
    omega
  · have := sameTet_in (v := c) (hf.two hwx x1 hdce h2 hc hl) (by simp)
    omega
  · have := sameTet_in (v := d) (hf.two hwx x1 hdce h3 hc hl) (by simp)
    omega

theorem Fan.clash44 (hf : Fan h wt S) (hs : Solids h wt) {x y p q r s : VId} (h1 : S (x, y, p, q)) (h2 : S (x, y, q, r))
    (h3 : S (x, y, r, s)) (h4 : S (x, y, s, p)) (n1 : 0 < D h (r, p, q, y)) (n2 : 0 < D h (r, p, y, s))
    (n3 : 0 < D h (r, p, s, x)) (n4 : 0 < D h (r, p, x, q)) {u v : VId} (hpr : S (r, p, u, v)) : False := by
  obtain ⟨k1, k2, k3, k4, k5, k6⟩ := D_nodup n1.ne'
  obtain ⟨-, k7, k8, k9, k10, k11⟩ := D_nodup n3.ne'
  obtain ⟨z, kr, kp, i1, i2, hz, hw⟩ : ∃ (z : Vec4 K) (kr kp : K), 0 < kr ∧ 0 < kp ∧ z = kr • h r + kp • h p ∧ 0 < wt z := by
    by_cases hr : r = GHOST
    · have hp : 0 < wt (h p) := hs p fun hp => k1 (hr.trans hp.symm)
      refine ⟨_, 1, (1 + |wt (h r)|) / wt (h p), one_pos, div_pos (by positivity) hp, rfl, ?_⟩
      rw [map_add, map_smul, map_smul, smul_eq_mul, smul_eq_mul, div_mul_cancel₀ _ hp.ne']
      have := neg_abs_le (wt (h r))
      linarith
    · have hr : 0 < wt (h r) := hs r hr
      refine ⟨_, (1 + |wt (h p)|) / wt (h r), 1, div_pos (by positivity) hr, one_pos, rfl, ?_⟩
      rw [map_add, map_smul, map_smul, smul_eq_mul, smul_eq_mul, div_mul_cancel₀ _ hr.ne']
      have := neg_abs_le (wt (h p))
      linarith
  have hS4 : ∀ n, n ∈ [(r, p, q, y), (r, p, y, s), (r, p, s, x), (r, p, x, q)] → 0 < D h n := by
    simp [n1, n2, n3, n4]
  have fin : {t | S t ∨ t ∈ [(r, p, q, y), (r, p, y, s), (r, p, s, x), (r, p, x, q)]}.Finite :=
    hf.fin.union (List.finite_toSet _)
  obtain ⟨w, x1, x2⟩ := near_free (h := h) (y := z) (z := h u + h v)
    (G := wt :: F h (r, q, y, p) :: F h (p, y, q, r) :: F h (r, y, s, p) :: F h (p, s, y, r) :: F h (r, s, x, p) ::
      F h (p, x, s, r) :: F h (r, x, q, p) :: F h (p, q, x, r) ::
      [F h (r, p, u, v), F h (r, v, p, u), F h (r, u, v, p), F h (p, v, u, r)]) fin
    (by rintro t (ht | ht)
        · exact hf.pos t ht
        · exact hS4 t ht) (by
      have side : ∀ {a b}, 0 < D h (r, p, a, b) → 0 < F h (r, a, b, p) z ∧ 0 < F h (p, b, a, r) z := by
        intro a b hab
        have hab : 0 < det (h r) (h p) (h a) (h b) := hab
        rw [hz]
        simp only [F, fun3_apply, det_add, det_smul, self0, self1, self2]
        rw [show det (h r) (h a) (h b) (h p) = det (h r) (h p) (h a) (h b) by simp only [det, det3]; ring,
          show det (h p) (h b) (h a) (h r) = det (h r) (h p) (h a) (h b) by simp only [det, det3]; ring]
        have m1 := mul_pos i1 hab
        have m2 := mul_pos i2 hab
        exact ⟨by linarith, by linarith⟩
      intro g hg
      rw [List.mem_cons, List.mem_cons, List.mem_cons, List.mem_cons, List.mem_cons, List.mem_cons, List.mem_cons,
        List.mem_cons, List.mem_cons] at hg
      rcases hg with rfl | rfl | rfl | rfl | rfl | rfl | rfl | rfl | rfl | hg
      · exact .inl hw
      · exact .inl (side n1).1
      · exact .inl (side n1).2
      · exact .inl (side n2).1
      · exact .inl (side n2).2
      · exact .inl (side n3).1
      · exact .inl (side n3).2
      · exact .inl (side n4).1
      · exact .inl (side n4).2
      · exact edge_faces (hf.pos _ hpr) i1 i2 hz hg)
  have hfree : Free h S w := fun t ht => x1 t (.inl ht)
  have g1 : det (h r) (h p) (h q) w ≠ 0 := x1 (r, p, q, y) (.inr (by simp))
  have g2 : det (h r) (h p) (h y) w ≠ 0 := x1 (r, p, y, s) (.inr (by simp))
  have g3 : det (h r) (h p) (h s) w ≠ 0 := x1 (r, p, s, x) (.inr (by simp))
  have g4 : det (h r) (h p) (h x) w ≠ 0 := x1 (r, p, x, q) (.inr (by simp))
  have hc : Cell h (r, p, u, v) w := ⟨x2 (F h (r, p, u, v)) (by simp), x2 (F h (r, v, p, u)) (by simp),
    x2 (F h (r, u, v, p)) (by simp), x2 (F h (p, v, u, r)) (by simp)⟩
  have hwx := x2 wt (by simp)
  have mk : ∀ {a b : VId}, 0 < det (h r) (h p) (h a) w ∧ det (h r) (h p) (h b) w < 0 → 0 < F h (r, a, b, p) w →
      0 < F h (p, b, a, r) w → Cell h (r, p, a, b) w := by
    intro a b hab j1 j2
    refine ⟨hab.1, ?_, j1, j2⟩
    show 0 < det (h r) (h b) (h p) w
    rw [swap1]
    linarith [hab.2]
  have hnew : Cell h (r, p, q, y) w ∨ Cell h (r, p, y, s) w ∨ Cell h (r, p, s, x) w ∨ Cell h (r, p, x, q) w := by
    rcases sector (a := h r) (b := h p) (q1 := h q) (q2 := h y) (q3 := h s) (q4 := h x) n1 n2 n3 n4 g1 g2 g3 g4 with
      hh | hh | hh | hh
    · exact .inl (mk hh (x2 _ (by simp)) (x2 _ (by simp)))
    · exact .inr (.inl (mk hh (x2 _ (by simp)) (x2 _ (by simp))))
    · exact .inr (.inr (.inl (mk hh (x2 _ (by simp)) (x2 _ (by simp)))))
    · exact .inr (.inr (.inr (mk hh (x2 _ (by simp)) (x2 _ (by simp)))))
  rcases (fill44 hf h1 h2 h3 h4 n1 n2 n3 n4 hfree g1 g2 g3 g4).2 hnew with hl | hl | hl | hl
  · have := sameTet_in (v := r) (hf.two hwx hfree hpr h1 hc hl) (by simp)
    omega
  · have := sameTet_in (v := p) (hf.two hwx hfree hpr h2 hc hl) (by simp)
    omega
  · have := sameTet_in (v := p) (hf.two hwx hfree hpr h3 hc hl) (by simp)
    omega
  · have := sameTet_in (v := r) (hf.two hwx hfree hpr h4 hc hl) (by simp)
    omega

end Tet
