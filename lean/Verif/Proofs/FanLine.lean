import Mathlib.Tactic.LinearCombination
import Verif.Proofs.FanCount

/-!
# A segment through tets whose cones cover the half space once
-/

namespace Tet
open Spec Vec4
variable {K : Type} [Field K] [LinearOrder K] [IsStrictOrderedRing K]
variable {h : VId → Vec4 K} {wt : Vec4 K →ₗ[K] K} {S : V4 → Prop}

/-- From `y`, a little in the direction of `z`, there are vectors inside the tet. -/
def Towards (h : VId → Vec4 K) (p : V4) (y z : Vec4 K) : Prop := ∀ q, SameTet p q → 0 < F h q y ∨ F h q y = 0 ∧ 0 < F h q z

/-- A vector next to two tets in the same direction. -/
theorem Fan.overlap (hf : Fan h wt S) {p q : V4} (hp : S p) (hq : S q) {y z : Vec4 K} (hw : 0 < wt y)
    (h1 : Towards h p y z) (h2 : Towards h q y z) : SameTet p q := by
  obtain ⟨x, hx, hG⟩ := near_free (G := wt :: ((twelve p).map (F h) ++ (twelve q).map (F h))) (y := y) (z := z) hf.fin hf.pos (by
    intro g hg
    rcases List.mem_cons.1 hg with rfl | hg
    · exact .inl hw
    · rcases List.mem_append.1 hg with hg | hg <;> obtain ⟨r, hr, rfl⟩ := List.mem_map.1 hg
      · exact h1 r (mem_twelve.1 hr)
      · exact h2 r (mem_twelve.1 hr))
  refine hf.two (hG wt List.mem_cons_self) hx hp hq ?_ ?_
  · exact Cell_iff.2 fun r hr => hG _ (List.mem_cons_of_mem _ (List.mem_append_left _ (List.mem_map_of_mem (mem_twelve.2 hr))))
  · exact Cell_iff.2 fun r hr => hG _ (List.mem_cons_of_mem _ (List.mem_append_right _ (List.mem_map_of_mem (mem_twelve.2 hr))))

/-- Inside a triangle of a tet: the other triangles have the point on their inner side. -/
theorem Vec4.InTri.others {a b c d : VId} {x : Vec4 K} (hx : InTri (h a) (h b) (h c) x) (hD : 0 < D h (a, b, c, d)) {q : V4}
    (hq : SameTet (a, b, c, d) q) :
    0 < F h q x ∨ F h q x = 0 ∧ (q = (a, b, c, d) ∨ q = (b, c, a, d) ∨ q = (c, a, b, d)) := by
  obtain ⟨ka, kb, kc, p1, p2, p3, hx⟩ := hx
  obtain ⟨f0, f1, f2, f3⟩ := tri_faces hD p1 p2 p3 hx
  rw [← mem_twelve] at hq
  have cyc (p q r : VId) : det (h q) (h r) (h p) x = det (h p) (h q) (h r) x := by simp only [det, det3]; ring
  have f0 : det (h a) (h b) (h c) x = 0 := f0
  have f1 : 0 < det (h a) (h d) (h b) x := f1
  have f2 : 0 < det (h a) (h c) (h d) x := f2
  have f3 : 0 < det (h b) (h d) (h c) x := f3
  have g0 := (cyc a b c).trans f0
  have i0 := (cyc b c a).trans g0
  have g1 := f1.trans_eq (cyc a d b).symm
  have i1 := g1.trans_eq (cyc d b a).symm
  have g2 := f2.trans_eq (cyc a c d).symm
  have i2 := g2.trans_eq (cyc c d a).symm
  have g3 := f3.trans_eq (cyc b d c).symm
  have i3 := g3.trans_eq (cyc d c b).symm
  have fd : ∀ p q r s, F h (p, q, r, s) x = det (h p) (h q) (h r) x := fun _ _ _ _ => rfl
  clear hx cyc
  generalize det (K := K) = dd at *
  simp only [twelve, List.mem_cons, List.not_mem_nil, or_false] at hq
  rcases hq with rfl | rfl | rfl | rfl | rfl | rfl | rfl | rfl | rfl | rfl | rfl | rfl
  all_goals
    rw [fd]
    first
    | exact .inl ‹_›
    | exact .inr ⟨‹_›, .inl rfl⟩
    | exact .inr ⟨‹_›, .inr (.inl rfl)⟩
    | exact .inr ⟨‹_›, .inr (.inr rfl)⟩

/-- The other side of a triangle has the opposite sign. -/
theorem F_side (a b c d e : VId) (x : Vec4 K) : F h (b, a, c, e) x = -F h (a, b, c, d) x := by
  change det (h b) (h a) (h c) x = -det (h a) (h b) (h c) x
  exact swap0 ..

/-- A point inside a triangle with tets on both sides, and next to some tet: the triangle belongs to that tet. -/
theorem Fan.meets (hf : Fan h wt S) {p : V4} (hp : S p) {a b c d e : VId} (h1 : S (a, b, c, d)) (h2 : S (b, a, c, e))
    {y z : Vec4 K} (hw : 0 < wt y) (ht : InTri (h a) (h b) (h c) y) (hy : Towards h p y z) :
    SameTet p (a, b, c, d) ∨ SameTet p (b, a, c, e) := by
  have ht' : InTri (h b) (h a) (h c) y := by
    obtain ⟨ka, kb, kc, p1, p2, p3, rfl⟩ := ht
    exact ⟨kb, ka, kc, p2, p1, p3, by module⟩
  -- towards the fourth vertex, if that is not the wrong side already
  have key : ∀ {a b c d : VId}, S (a, b, c, d) → InTri (h a) (h b) (h c) y → 0 ≤ F h (a, b, c, d) z → SameTet p (a, b, c, d) := by
    intro a b c d h1 ht hz
    have hD : 0 < F h (a, b, c, d) (h d) := hf.pos _ h1
    obtain ⟨e, he, hsm⟩ := small (((twelve p).filter fun q => decide (F h q y = 0)).map (F h)) z (h d) (by
      intro g hg
      obtain ⟨q, hq, rfl⟩ := List.mem_map.1 hg
      obtain ⟨hq, h0⟩ := List.mem_filter.1 hq
      rcases hy q (mem_twelve.1 hq) with h3 | ⟨h3, h4⟩
      · simp [h3.ne'] at h0
      · exact .inl h4)
    have hsm := hsm e he le_rfl
    refine hf.overlap hp h1 (z := z + e • h d) hw ?_ ?_
    · intro q hq
      rcases hy q hq with h3 | ⟨h3, h4⟩
      · exact .inl h3
      · exact .inr ⟨h3, hsm _ (List.mem_map_of_mem (List.mem_filter.2 ⟨mem_twelve.2 hq, by simpa using h3⟩))⟩
    · intro q hq
      rcases ht.others (hf.pos _ h1) hq with h3 | ⟨h3, h4⟩
      · exact .inl h3
      · refine .inr ⟨h3, ?_⟩
        have : F h q (z + e • h d) = F h (a, b, c, d) (z + e • h d) := by
          rcases h4 with rfl | rfl | rfl
          · rfl
          all_goals simp only [F, fun3_apply, det, det3]; ring
        rw [this, map_add, map_smul, smul_eq_mul]
        have := mul_pos he hD
        linarith
  rcases le_total 0 (F h (a, b, c, d) z) with hz | hz
  · exact .inl (key h1 ht hz)
  · refine .inr (key h2 ht' ?_)
    rw [F_side a b c d e]
    linarith

/-- Between two points of a tet that are not in the same triangle. -/
theorem between {p : V4} {y1 y2 : Vec4 K} (h1 : ∀ q, SameTet p q → 0 ≤ F h q y1 ∧ 0 ≤ F h q y2 ∧ (0 < F h q y1 ∨ 0 < F h q y2))
    {s : K} (s0 : 0 < s) (s1 : s < 1) : Cell h p (y1 + s • (y2 - y1)) := by
  refine Cell_iff.2 fun q hq => ?_
  obtain ⟨k1, k2, k3⟩ := h1 q hq
  rw [map_add, map_smul, map_sub, smul_eq_mul]
  have : F h q y1 + s * (F h q y2 - F h q y1) = (1 - s) * F h q y1 + s * F h q y2 := by ring
  rw [this]
  have := mul_nonneg (by linarith : 0 ≤ 1 - s) k1
  have := mul_nonneg s0.le k2
  rcases k3 with k3 | k3
  · have := mul_pos (by linarith : 0 < 1 - s) k3
    linarith
  · have := mul_pos s0 k3
    linarith

/-- The vertices of a tet are on its planes or on their inner sides. -/
theorem corner_faces {a b c d : VId} (hD : 0 < D h (a, b, c, d)) {q : V4} (hq : SameTet (a, b, c, d) q) :
    F h q (h d) = 0 ∨ 0 < F h q (h d) ∧ (q = (a, b, c, d) ∨ q = (b, c, a, d) ∨ q = (c, a, b, d)) := by
  rw [← D_same hq] at hD
  have hD' : 0 < F h q (h q.2.2.2) := hD
  have z : ∀ x y w : VId, det (h x) (h y) (h w) (h x) = 0 ∧ det (h x) (h y) (h w) (h y) = 0 ∧ det (h x) (h y) (h w) (h w) = 0 :=
    fun x y w => ⟨self0 .., self1 .., self2 ..⟩
  have fd : ∀ p q r s x, F h (p, q, r, s) (h x) = det (h p) (h q) (h r) (h x) := fun _ _ _ _ _ => rfl
  rw [← mem_twelve] at hq
  clear hD
  generalize F h = ff at *
  generalize det (K := K) = dd at *
  simp only [twelve, List.mem_cons, List.not_mem_nil, or_false] at hq
  rcases hq with rfl | rfl | rfl | rfl | rfl | rfl | rfl | rfl | rfl | rfl | rfl | rfl
  all_goals first
    | exact .inr ⟨hD', .inl rfl⟩
    | exact .inr ⟨hD', .inr (.inl rfl)⟩
    | exact .inr ⟨hD', .inr (.inr rfl)⟩
    | exact .inl (by rw [fd]; first | exact (z _ _ _).1 | exact (z _ _ _).2.1 | exact (z _ _ _).2.2)

/-- The cones of the tets cover the half space once, all triangles have tets on both sides, and no four vertices are in
a plane. -/
structure Generic (h : VId → Vec4 K) (wt : Vec4 K →ₗ[K] K) (S : V4 → Prop) (P : VId → Prop) : Prop where
  fan : Fan h wt S
  adj : ∀ a b c d, S (a, b, c, d) → ∃ e, S (b, a, c, e)
  verts : ∀ a b c d, S (a, b, c, d) → P a ∧ P b ∧ P c ∧ P d
  gen : ∀ a b c d, [a, b, c, d].Nodup → P a → P b → P c → P d → D h (a, b, c, d) ≠ 0

variable {P : VId → Prop}

theorem Towards.corner {v a b c : VId} (hD : 0 < D h (a, b, c, v)) : Towards h (a, b, c, v) (h v) (h a + h b + h c) := by
  intro q hq
  rcases corner_faces hD hq with h1 | ⟨h1, -⟩
  · refine .inr ⟨h1, ?_⟩
    rw [map_add, map_add]
    have e : ∀ {x y z w}, SameTet (a, b, c, v) (x, y, z, w) → 0 ≤ F h q (h w) := by
      intro x y z w hs
      rcases corner_faces (h := h) (by rw [D_same hs]; exact hD) (SameTet.trans' (SameTet.symm' hs) hq) with k | ⟨k, -⟩
      · exact k.ge
      · exact k.le
    have ha := e (w := a) (x := b) (y := v) (z := c) (mem_twelve.1 (by simp [twelve]))
    have hb := e (w := b) (x := a) (y := c) (z := v) (mem_twelve.1 (by simp [twelve]))
    have hc := e (w := c) (x := a) (y := v) (z := b) (mem_twelve.1 (by simp [twelve]))
    have hp : 0 < F h q (h q.2.2.2) := by
      have : 0 < D h q := by rwa [D_same hq]
      exact this
    have : q.2.2.2 = a ∨ q.2.2.2 = b ∨ q.2.2.2 = c := by
      obtain ⟨x, y, z, w⟩ := q
      have := sameTet_in (SameTet.symm' hq) (v := w) (by simp)
      rcases this with h2 | h2 | h2 | h2
      · exact .inl h2
      · exact .inr (.inl h2)
      · exact .inr (.inr h2)
      · simp only at hp
        rw [h2] at hp
        exact absurd h1 hp.ne'
    rcases this with h2 | h2 | h2 <;> rw [h2] at hp <;> linarith
  · exact .inl h1

/-- No vertex is inside a tet. -/
theorem Fan.vertex_outside (hf : Fan h wt S) {v a b c : VId} (hv : S (a, b, c, v)) (hw : 0 < wt (h v)) {p : V4} (hp : S p) :
    ¬ Cell h p (h v) := by
  intro hc
  have hs := hf.overlap hp hv (y := h v) (z := h a + h b + h c) hw (fun q hq => .inl (Cell_iff.1 hc q hq))
    (Towards.corner (hf.pos _ hv))
  have := Cell_iff.1 hc (a, v, b, c) (SameTet.trans' hs (mem_twelve.1 (by simp [twelve])))
  have h2 : F h (a, v, b, c) (h v) = 0 := by
    change det (h a) (h v) (h b) (h v) = 0
    exact self1 ..
  linarith

/-- The point of the segment. -/
def pt (h : VId → Vec4 K) (v0 v1 : VId) (t : K) : Vec4 K := h v0 + t • (h v1 - h v0)

theorem pt_wt {v0 v1 : VId} (h0 : 0 < wt (h v0)) (h1 : 0 < wt (h v1)) {t : K} (t0 : 0 ≤ t) (t1 : t ≤ 1) : 0 < wt (pt h v0 v1 t) := by
  rw [pt, map_add, map_smul, map_sub, smul_eq_mul]
  have : wt (h v0) + t * (wt (h v1) - wt (h v0)) = (1 - t) * wt (h v0) + t * wt (h v1) := by ring
  rw [this]
  rcases t0.lt_or_eq with t0 | rfl
  · have := mul_nonneg (by linarith : 0 ≤ 1 - t) h0.le
    have := mul_pos t0 h1
    linarith
  · linarith

theorem F_pt (q : V4) (v0 v1 : VId) (t : K) : F h q (pt h v0 v1 t) = (1 - t) * F h q (h v0) + t * F h q (h v1) := by
  rw [pt, map_add, map_smul, map_sub, smul_eq_mul]
  ring

omit [LinearOrder K] [IsStrictOrderedRing K] in
theorem pt_mid (v0 v1 : VId) (s t r : K) : pt h v0 v1 s + r • (pt h v0 v1 t - pt h v0 v1 s) = pt h v0 v1 (s + r * (t - s)) := by
  simp only [pt]
  module

omit [LinearOrder K] [IsStrictOrderedRing K] in
theorem pt_one (v0 v1 : VId) : pt h v0 v1 1 = h v1 := by simp [pt]

omit [LinearOrder K] [IsStrictOrderedRing K] in
theorem pt_zero (v0 v1 : VId) : pt h v0 v1 0 = h v0 := by simp [pt]

/-- The segment meets the triangle at `t`. -/
def Hits (h : VId → Vec4 K) (v0 v1 : VId) (a b c : VId) (t : K) : Prop :=
  0 < t ∧ t < 1 ∧ InTri (h a) (h b) (h c) (pt h v0 v1 t)

/-- The segment is inside a tet from `s` to `t`: between, it meets no triangle. -/
theorem Generic.no_hit (hg : Generic h wt S P) {v0 v1 : VId} (w0 : 0 < wt (h v0)) (w1 : 0 < wt (h v1)) {p : V4} (hp : S p) {t : K}
    (hc : Cell h p (pt h v0 v1 t)) {a b c d : VId} (hS : S (a, b, c, d)) (hh : Hits h v0 v1 a b c t) : False := by
  obtain ⟨e, he⟩ := hg.adj _ _ _ _ hS
  have hx := hh.2.2
  rcases hg.fan.meets hp hS he (pt_wt w0 w1 hh.1.le hh.2.1.le) hx (z := 0) (fun q hq => .inl (Cell_iff.1 hc q hq)) with hs | hs
  · have := Cell_iff.1 hc _ hs
    rw [hx.plane] at this
    exact lt_irrefl _ this
  · have := Cell_iff.1 hc _ hs
    rw [F_side a b c d e, hx.plane, neg_zero] at this
    exact lt_irrefl _ this

/-- Two triangles at the same point are the same. -/
theorem Generic.same_hit (hg : Generic h wt S P) {v0 v1 : VId} (w0 : 0 < wt (h v0)) (w1 : 0 < wt (h v1)) {t : K}
    {a b c d : VId} (hS : S (a, b, c, d)) (hh : Hits h v0 v1 a b c t)
    {a' b' c' d' : VId} (hS' : S (a', b', c', d')) (hh' : Hits h v0 v1 a' b' c' t) :
    (a', b', c') ∈ [(a, b, c), (b, c, a), (c, a, b), (b, a, c), (a, c, b), (c, b, a)] := by
  obtain ⟨e', he'⟩ := hg.adj _ _ _ _ hS'
  have hx := hh.2.2
  have hx' := hh'.2.2
  have hw := pt_wt w0 w1 hh.1.le hh.2.1.le
  have hD := hg.fan.pos _ hS
  have ht : Towards h (a, b, c, d) (pt h v0 v1 t) (h d) := by
    intro q hq
    rcases hx.others hD hq with h3 | ⟨h3, h4⟩
    · exact .inl h3
    · refine .inr ⟨h3, ?_⟩
      have : 0 < D h q := by rwa [D_same hq]
      rcases h4 with rfl | rfl | rfl <;> exact this
  rcases hg.fan.meets hS hS' he' hw hx' ht with hs | hs
  · rcases hx.others hD hs with h3 | ⟨-, h4⟩
    · rw [hx'.plane] at h3
      exact absurd h3 (lt_irrefl _)
    · rcases h4 with h4 | h4 | h4 <;> cases h4 <;> simp
  · rcases hx.others hD hs with h3 | ⟨-, h4⟩
    · rw [F_side a' b' c' d' e', hx'.plane, neg_zero] at h3
      exact absurd h3 (lt_irrefl _)
    · rcases h4 with h4 | h4 | h4 <;> cases h4 <;> simp

/-- Where a linear function on the segment vanishes. -/
theorem zero_before {f0 f1 t t' : K} (ht : t < 1) (h1 : 0 < f1) (hz : (1 - t) * f0 + t * f1 = 0)
    (hp : 0 < (1 - t') * f0 + t' * f1) : t < t' := by
  have e : (1 - t) * ((1 - t') * f0 + t' * f1) = f1 * (t' - t) := by
    have : (1 - t) * f0 = -(t * f1) := by linarith
    calc (1 - t) * ((1 - t') * f0 + t' * f1) = (1 - t') * ((1 - t) * f0) + (1 - t) * t' * f1 := by ring
      _ = f1 * (t' - t) := by rw [this]; ring
  have h2 : 0 < f1 * (t' - t) := by rw [← e]; exact mul_pos (by linarith) hp
  have := (mul_pos_iff_of_pos_left h1).1 h2
  linarith

theorem neg_after {g0 g1 t t' : K} (ht : t < t') (ht' : t' < 1) (hp : 0 < (1 - t) * g0 + t * g1)
    (hz : (1 - t') * g0 + t' * g1 = 0) : g1 < 0 := by
  have e : (1 - t') * ((1 - t) * g0 + t * g1) = g1 * (t - t') := by
    have : (1 - t') * g0 = -(t' * g1) := by linarith
    calc (1 - t') * ((1 - t) * g0 + t * g1) = (1 - t) * ((1 - t') * g0) + (1 - t') * t * g1 := by ring
      _ = g1 * (t - t') := by rw [this]; ring
  have h2 : 0 < g1 * (t - t') := by rw [← e]; exact mul_pos (by linarith) hp
  by_contra h3
  exact (mul_nonpos_of_nonneg_of_nonpos (not_lt.1 h3) (by linarith : t - t' ≤ 0)).not_gt h2

theorem Hits.swap {v0 v1 a b c : VId} {t : K} (hh : Hits h v0 v1 a b c t) : Hits h v0 v1 b a c t := by
  obtain ⟨h1, h2, ka, kb, kc, p1, p2, p3, h3⟩ := hh
  exact ⟨h1, h2, kb, ka, kc, p2, p1, p3, by rw [h3]; module⟩

theorem Hits.rot {v0 v1 a b c : VId} {t : K} (hh : Hits h v0 v1 a b c t) : Hits h v0 v1 b c a t := by
  obtain ⟨h1, h2, ka, kb, kc, p1, p2, p3, h3⟩ := hh
  exact ⟨h1, h2, kb, kc, ka, p2, p3, p1, by rw [h3]; module⟩

/-- From one triangle of a tet to another one. -/
theorem Generic.step (hg : Generic h wt S P) {v0 v1 a b c e x y z w : VId} {t t' : K} (hS : S (b, a, c, e))
    (ht : Hits h v0 v1 a b c t) (hv : F h (a, b, c, e) (h v1) < 0) (hs : SameTet (b, a, c, e) (x, y, z, w)) (hne : w ≠ e)
    (ht' : Hits h v0 v1 x y z t') :
    t < t' ∧ F h (x, y, z, w) (h v1) < 0 ∧ ∀ s, t < s → s < t' → Cell h (b, a, c, e) (pt h v0 v1 s) := by
  have hD := hg.fan.pos _ hS
  have hD' := hg.fan.pos _ (hg.fan.closed _ _ hS hs)
  have hv' : 0 < F h (b, a, c, e) (h v1) := by rw [F_side a b c e e]; linarith
  have ot {q : V4} (hq : SameTet (b, a, c, e) q) := ht.swap.2.2.others hD hq
  have ot' {q : V4} (hq : SameTet (b, a, c, e) q) := ht'.2.2.others hD' (SameTet.trans' (SameTet.symm' hs) hq)
  have k1 : 0 < F h (b, a, c, e) (pt h v0 v1 t') := by
    rcases ot' (EvenRearr.refl _) with h1 | ⟨-, h1 | h1 | h1⟩
    · exact h1
    all_goals cases h1; exact absurd rfl hne
  have k2 : 0 < F h (x, y, z, w) (pt h v0 v1 t) := by
    rcases ot hs with h1 | ⟨-, h1 | h1 | h1⟩
    · exact h1
    all_goals cases h1; exact absurd rfl hne
  have z1 : F h (b, a, c, e) (pt h v0 v1 t) = 0 := ht.swap.2.2.plane
  have z2 : F h (x, y, z, w) (pt h v0 v1 t') = 0 := ht'.2.2.plane
  rw [F_pt] at k1 k2 z1 z2
  have hlt := zero_before ht.2.1 hv' z1 k1
  refine ⟨hlt, neg_after hlt ht'.2.1 k2 z2, fun s s1 s2 => ?_⟩
  have hd : 0 < t' - t := by linarith
  have := between (h := h) (p := (b, a, c, e)) (y1 := pt h v0 v1 t) (y2 := pt h v0 v1 t') (s := (s - t) / (t' - t)) (fun q hq => by
    rcases ot hq with h1 | ⟨h1, h1'⟩ <;> rcases ot' hq with h2 | ⟨h2, h2'⟩
    · exact ⟨h1.le, h2.le, .inl h1⟩
    · exact ⟨h1.le, h2.ge, .inl h1⟩
    · exact ⟨h1.ge, h2.le, .inr h2⟩
    · exfalso
      rcases h1' with rfl | rfl | rfl <;> rcases h2' with h | h | h <;> cases h <;> exact hne rfl)
    (div_pos (by linarith) hd) ((div_lt_one hd).2 (by linarith))
  rwa [pt_mid, div_mul_cancel₀ _ hd.ne', add_sub_cancel] at this

/-- The segment ends at the fourth vertex. -/
theorem Generic.stop (hg : Generic h wt S P) {v0 v1 a b c : VId} {t : K} (hS : S (b, a, c, v1))
    (ht : Hits h v0 v1 a b c t) {s : K} (s1 : t < s) (s2 : s < 1) : Cell h (b, a, c, v1) (pt h v0 v1 s) := by
  have hD := hg.fan.pos _ hS
  have hd : 0 < 1 - t := by linarith [ht.2.1]
  have := between (h := h) (p := (b, a, c, v1)) (y1 := pt h v0 v1 t) (y2 := pt h v0 v1 1) (s := (s - t) / (1 - t)) (fun q hq => by
    rw [pt_one]
    rcases ht.swap.2.2.others hD hq with h1 | ⟨h1, h1'⟩ <;> rcases corner_faces hD hq with h2 | ⟨h2, h2'⟩
    · exact ⟨h1.le, h2.ge, .inl h1⟩
    · exact ⟨h1.le, h2.le, .inl h1⟩
    · exfalso
      have : 0 < D h q := by rwa [D_same hq]
      have h3 : 0 < F h q (h q.2.2.2) := this
      rcases h1' with rfl | rfl | rfl <;> exact h3.ne' h2
    · exact ⟨h1.ge, h2.le, .inr h2⟩)
    (div_pos (by linarith) hd) ((div_lt_one hd).2 (by linarith))
  rwa [pt_mid, div_mul_cancel₀ _ hd.ne', add_sub_cancel] at this

/-- The segment starts at the fourth vertex. -/
theorem Generic.start (hg : Generic h wt S P) {v0 v1 a b c : VId} {t : K} (hS : S (a, b, c, v0))
    (ht : Hits h v0 v1 a b c t) : F h (a, b, c, v0) (h v1) < 0 ∧ ∀ s, 0 < s → s < t → Cell h (a, b, c, v0) (pt h v0 v1 s) := by
  have hD := hg.fan.pos _ hS
  constructor
  · have z : F h (a, b, c, v0) (pt h v0 v1 t) = 0 := ht.2.2.plane
    rw [F_pt] at z
    have hp : 0 < F h (a, b, c, v0) (h v0) := hD
    exact neg_after ht.1 ht.2.1 (by linarith) z
  · intro s s1 s2
    have := between (h := h) (p := (a, b, c, v0)) (y1 := pt h v0 v1 0) (y2 := pt h v0 v1 t) (s := s / t) (fun q hq => by
      rw [pt_zero]
      rcases ht.2.2.others hD hq with h1 | ⟨h1, h1'⟩ <;> rcases corner_faces hD hq with h2 | ⟨h2, h2'⟩
      · exact ⟨h2.ge, h1.le, .inr h1⟩
      · exact ⟨h2.le, h1.le, .inr h1⟩
      · exfalso
        have : 0 < D h q := by rwa [D_same hq]
        have h3 : 0 < F h q (h q.2.2.2) := this
        rcases h1' with rfl | rfl | rfl <;> exact h3.ne' h2
      · exact ⟨h2.le, h1.ge, .inl h2⟩)
      (div_pos s1 ht.1) ((div_lt_one ht.1).2 s2)
    rwa [pt_mid, sub_zero, zero_add, div_mul_cancel₀ _ ht.1.ne'] at this

/-- The first function that vanishes on the way. -/
theorem first_zero {G : List (Vec4 K →ₗ[K] K)} {y v : Vec4 K} (hy : ∀ g ∈ G, 0 < g y ∨ g y = 0 ∧ 0 < g v)
    (hv : ∃ g ∈ G, g v < 0) : ∃ r : K, 0 < r ∧ r < 1 ∧ (∀ g ∈ G, 0 ≤ g (y + r • (v - y))) ∧
      ∃ g ∈ G, g (y + r • (v - y)) = 0 ∧ g v < 0 := by
  classical
  obtain ⟨g1, hg1, hn1⟩ := hv
  obtain ⟨f, hf, hmin⟩ := Finset.exists_min_image (G.filter fun g => decide (g v < 0)).toFinset (fun g => g y / (g y - g v))
    ⟨g1, by simp [hg1, hn1]⟩
  simp only [List.mem_toFinset, List.mem_filter, decide_eq_true_eq, and_imp] at hf hmin
  obtain ⟨hf, hfv⟩ := hf
  have pos : ∀ g ∈ G, g v < 0 → 0 < g y := fun g hg hgv => (hy g hg).resolve_right fun h => absurd h.2 hgv.not_gt
  have hfy := pos f hf hfv
  have hd : 0 < f y - f v := by linarith
  refine ⟨f y / (f y - f v), div_pos hfy hd, (div_lt_one hd).2 (by linarith), fun g hg => ?_, f, hf, ?_, hfv⟩
  · rw [map_add, map_smul, map_sub, smul_eq_mul]
    have r0 : 0 < f y / (f y - f v) := div_pos hfy hd
    have r1 : f y / (f y - f v) < 1 := (div_lt_one hd).2 (by linarith)
    by_cases hgv : g v < 0
    · have := hmin g hg hgv
      have hgy := pos g hg hgv
      rw [le_div_iff₀ (by linarith)] at this
      linarith
    · have k1 := mul_nonneg r0.le (not_lt.1 hgv)
      have k2 : 0 ≤ g y := by rcases hy g hg with h | h <;> linarith [h]
      have k3 := mul_nonneg (by linarith : 0 ≤ 1 - f y / (f y - f v)) k2
      have : g y + f y / (f y - f v) * (g v - g y) = (1 - f y / (f y - f v)) * g y + f y / (f y - f v) * g v := by ring
      rw [this]
      linarith
  · rw [map_add, map_smul, map_sub, smul_eq_mul]
    have : f y / (f y - f v) * (f v - f y) = -(f y / (f y - f v) * (f y - f v)) := by ring
    rw [this, div_mul_cancel₀ _ hd.ne', add_neg_cancel]

/-- A point in a plane of a tet that is on no line of an edge. -/
theorem inTri_of {x y z w : VId} (hD : 0 < D h (x, y, z, w)) {p : Vec4 K} (h0 : F h (x, y, z, w) p = 0)
    (hn : ∀ q, SameTet (x, y, z, w) q → 0 ≤ F h q p) (e1 : ∀ k l : K, p ≠ k • h x + l • h y) (e2 : ∀ k l : K, p ≠ k • h y + l • h z)
    (e3 : ∀ k l : K, p ≠ k • h x + l • h z) : InTri (h x) (h y) (h z) p := by
  have hD' : det (h x) (h y) (h z) (h w) ≠ 0 := hD.ne'
  obtain ⟨kx, ky, kz, kw, hp⟩ := basis hD' p
  have c4 : F h (x, y, z, w) p = kw * D h (x, y, z, w) := by
    rw [hp]
    simp only [F, fun3_apply, det_add, det_smul, self0, self1, self2, D]
    ring
  have c1 : F h (x, w, y, z) p = kz * D h (x, y, z, w) := by
    rw [hp]
    simp only [F, fun3_apply, det_add, det_smul, self0, self1, self2, D]
    rw [show det (h x) (h w) (h y) (h z) = det (h x) (h y) (h z) (h w) by simp only [det, det3]; ring]
    ring
  have c2 : F h (y, w, z, x) p = kx * D h (x, y, z, w) := by
    rw [hp]
    simp only [F, fun3_apply, det_add, det_smul, self0, self1, self2, D]
    rw [show det (h y) (h w) (h z) (h x) = det (h x) (h y) (h z) (h w) by simp only [det, det3]; ring]
    ring
  have c3 : F h (z, w, x, y) p = ky * D h (x, y, z, w) := by
    rw [hp]
    simp only [F, fun3_apply, det_add, det_smul, self0, self1, self2, D]
    rw [show det (h z) (h w) (h x) (h y) = det (h x) (h y) (h z) (h w) by simp only [det, det3]; ring]
    ring
  have hkw : kw = 0 := by
    rw [h0] at c4
    exact (mul_eq_zero.1 c4.symm).resolve_right hD.ne'
  have p1 := hn (x, w, y, z) (mem_twelve.1 (by simp [twelve]))
  have p2 := hn (y, w, z, x) (mem_twelve.1 (by simp [twelve]))
  have p3 := hn (z, w, x, y) (mem_twelve.1 (by simp [twelve]))
  rw [c1, mul_nonneg_iff_of_pos_right hD] at p1
  rw [c2, mul_nonneg_iff_of_pos_right hD] at p2
  rw [c3, mul_nonneg_iff_of_pos_right hD] at p3
  have hp : p = kx • h x + ky • h y + kz • h z := by rw [hp, hkw]; module
  refine ⟨kx, ky, kz, p2.lt_of_ne fun h => ?_, p3.lt_of_ne fun h => ?_, p1.lt_of_ne fun h => ?_, hp⟩
  · exact e2 ky kz (by rw [hp, ← h]; module)
  · exact e3 kx kz (by rw [hp, ← h]; module)
  · exact e1 kx ky (by rw [hp, ← h]; module)

/-- The segment meets no line of an edge. -/
theorem Generic.avoid (hg : Generic h wt S P) {v0 v1 a b : VId} (w0 : 0 < wt (h v0)) (w1 : 0 < wt (h v1)) (p0 : P v0) (p1 : P v1)
    (pa : P a) (pb : P b) (hn : [v0, v1, a, b].Nodup) {t : K} (t0 : 0 ≤ t) (t1 : t ≤ 1) (k l : K) : pt h v0 v1 t ≠ k • h a + l • h b := by
  intro he
  have hd : det (h v0) (h v1) (h a) (h b) ≠ 0 := hg.gen _ _ _ _ hn p0 p1 pa pb
  have z : ∀ x, det (h v0) (h v1) x (pt h v0 v1 t) = 0 := by
    intro x
    simp only [pt, sub_eq_add_neg, det_add, det_smul, det_neg, self0, self1, mul_zero, add_zero, neg_zero]
  have hl : l = 0 := by
    have := z (h a)
    rw [he] at this
    simp only [det_add, det_smul, self2, mul_zero, zero_add] at this
    exact (mul_eq_zero.1 this).resolve_right hd
  have hk : k = 0 := by
    have := z (h b)
    rw [he] at this
    simp only [det_add, det_smul, self2, mul_zero, add_zero] at this
    refine (mul_eq_zero.1 this).resolve_right fun h2 => hd ?_
    rw [swap2, h2, neg_zero]
  have := pt_wt w0 w1 t0 t1
  rw [he, hl, hk, zero_smul, zero_smul, add_zero, map_zero] at this
  exact lt_irrefl _ this

/-- If the segment does not end in the tet, it leaves through another triangle. -/
theorem Generic.exit (hg : Generic h wt S P) {v0 v1 a b c e : VId} (w0 : 0 < wt (h v0)) (w1 : 0 < wt (h v1)) (p0 : P v0)
    (h1 : ∃ x y z, S (x, y, z, v1)) {t : K} (hS : S (b, a, c, e)) (ht : Hits h v0 v1 a b c t) (hv : F h (a, b, c, e) (h v1) < 0)
    (hne : v1 ≠ e) : ∃ x y z w t', SameTet (b, a, c, e) (x, y, z, w) ∧ w ≠ e ∧ v0 ∉ [x, y, z] ∧ Hits h v0 v1 x y z t' := by
  have hD := hg.fan.pos _ hS
  have p1 : P v1 := by
    obtain ⟨x, y, z, hx⟩ := h1
    exact (hg.verts _ _ _ _ hx).2.2.2
  have hv' : 0 < F h (b, a, c, e) (h v1) := by rw [F_side a b c e e]; linarith
  -- the start is behind the triangle
  have hv0 : F h (b, a, c, e) (h v0) < 0 := by
    have z : F h (b, a, c, e) (pt h v0 v1 t) = 0 := ht.swap.2.2.plane
    rw [F_pt] at z
    by_contra h0
    have := mul_nonneg (by linarith [ht.2.1] : 0 ≤ 1 - t) (not_lt.1 h0)
    have := mul_pos ht.1 hv'
    linarith
  have self : ∀ {x y z w v}, SameTet (b, a, c, e) (x, y, z, w) → v = x ∨ v = y ∨ v = z ∨ v = w → 0 ≤ F h (b, a, c, e) (h v) := by
    intro x y z w v hs hvx
    have hq : v = b ∨ v = a ∨ v = c ∨ v = e := sameTet_in (SameTet.symm' hs) hvx
    rcases hq with rfl | rfl | rfl | rfl
    · exact (self0 (h v) (h a) (h c)).ge
    · exact (self1 (h b) (h v) (h c)).ge
    · exact (self2 (h b) (h a) (h v)).ge
    · exact hD.le
  have n0 : ∀ {x y z w}, SameTet (b, a, c, e) (x, y, z, w) → v0 ≠ x ∧ v0 ≠ y ∧ v0 ≠ z ∧ v0 ≠ w := by
    intro x y z w hs
    refine ⟨?_, ?_, ?_, ?_⟩ <;> intro h <;> exact (self (v := v0) hs (by tauto)).not_gt hv0
  have n1 : ∀ {x y z w}, SameTet (b, a, c, e) (x, y, z, w) → v1 ≠ x ∧ v1 ≠ y ∧ v1 ≠ z ∧ v1 ≠ w := by
    intro x y z w hs
    have : ¬ (v1 = x ∨ v1 = y ∨ v1 = z ∨ v1 = w) := by
      intro h
      rcases sameTet_in (SameTet.symm' hs) h with rfl | rfl | rfl | rfl
      · exact hv'.ne' (self0 ..)
      · exact hv'.ne' (self1 ..)
      · exact hv'.ne' (self2 ..)
      · exact hne rfl
    tauto
  have n01 : v0 ≠ v1 := by
    rintro rfl
    linarith
  have dist : ∀ {x y z w}, SameTet (b, a, c, e) (x, y, z, w) → x ≠ y ∧ x ≠ z ∧ x ≠ w ∧ y ≠ z ∧ y ≠ w ∧ z ≠ w := by
    intro x y z w hs
    exact D_nodup (h := h) (by rw [D_same hs]; exact hD.ne')
  have ver : ∀ {x y z w}, SameTet (b, a, c, e) (x, y, z, w) → P x ∧ P y ∧ P z ∧ P w := fun hs =>
    hg.verts _ _ _ _ (hg.fan.closed _ _ hS hs)
  have hneg : ∃ g ∈ (twelve (b, a, c, e)).map (F h), g (h v1) < 0 := by
    by_contra hcon
    push Not at hcon
    obtain ⟨x, y, z, hx⟩ := h1
    refine hg.fan.vertex_outside hx w1 hS (Cell_iff.2 fun q hq => ?_)
    refine (hcon _ (List.mem_map_of_mem (mem_twelve.2 hq))).lt_of_ne fun h0 => ?_
    obtain ⟨x, y, z, w⟩ := q
    obtain ⟨i1, i2, i3, -⟩ := n1 hq
    obtain ⟨j1, j2, -, j3, -⟩ := dist hq
    obtain ⟨q1, q2, q3, -⟩ := ver hq
    refine hg.gen x y z v1 ?_ q1 q2 q3 p1 h0.symm
    simp only [List.nodup_cons, List.mem_cons, List.not_mem_nil, or_false, not_or, not_false_iff, List.nodup_nil, and_true]
    exact ⟨⟨j1, j2, i1.symm⟩, ⟨j3, i2.symm⟩, i3.symm⟩
  obtain ⟨r, r0, r1, hr, g, hgm, hgz, hgn⟩ := first_zero (y := pt h v0 v1 t) (v := h v1) (G := (twelve (b, a, c, e)).map (F h)) (by
    intro g hgm
    obtain ⟨q, hq, rfl⟩ := List.mem_map.1 hgm
    rcases ht.swap.2.2.others hD (mem_twelve.1 hq) with h1 | ⟨h1, h2⟩
    · exact .inl h1
    · refine .inr ⟨h1, ?_⟩
      have : F h q (h v1) = F h (b, a, c, e) (h v1) := by
        rcases h2 with rfl | rfl | rfl
        · rfl
        all_goals simp only [F, fun3_apply, det, det3]; ring
      rwa [this]) hneg
  obtain ⟨⟨x, y, z, w⟩, hq, rfl⟩ := List.mem_map.1 hgm
  have hq := mem_twelve.1 hq
  have hpt : pt h v0 v1 t + r • (h v1 - pt h v0 v1 t) = pt h v0 v1 (t + r * (1 - t)) := by
    rw [← pt_one (h := h) v0 v1, pt_mid]
  rw [hpt] at hgz hr
  have s1 : 0 < t + r * (1 - t) := by
    have := mul_pos r0 (by linarith [ht.2.1] : 0 < 1 - t)
    linarith [ht.1]
  have s2 : t + r * (1 - t) < 1 := by
    have := mul_lt_mul_of_pos_right r1 (by linarith [ht.2.1] : 0 < 1 - t)
    linarith
  obtain ⟨i1, i2, i3, -⟩ := n1 hq
  obtain ⟨o1, o2, o3, -⟩ := n0 hq
  obtain ⟨j1, j2, -, j3, -⟩ := dist hq
  obtain ⟨q1, q2, q3, -⟩ := ver hq
  refine ⟨x, y, z, w, t + r * (1 - t), hq, ?_, by simp [o1, o2, o3], s1, s2, inTri_of ?_ hgz ?_ ?_ ?_ ?_⟩
  · rintro rfl
    have : F h (x, y, z, w) (h v1) = F h (b, a, c, w) (h v1) := by
      have hd := dist (EvenRearr.refl _ : SameTet (b, a, c, w) (b, a, c, w))
      have hq := mem_twelve.2 hq
      simp only [twelve, List.mem_cons, List.not_mem_nil, or_false, Prod.mk.injEq] at hq
      have : (x = b ∧ y = a ∧ z = c) ∨ (x = a ∧ y = c ∧ z = b) ∨ (x = c ∧ y = b ∧ z = a) := by omega
      rcases this with ⟨rfl, rfl, rfl⟩ | ⟨rfl, rfl, rfl⟩ | ⟨rfl, rfl, rfl⟩
      · rfl
      all_goals simp only [F, fun3_apply, det, det3]; ring
    rw [this] at hgn
    linarith
  · rw [D_same hq]; exact hD
  · intro q hq'
    exact hr _ (List.mem_map_of_mem (mem_twelve.2 (SameTet.trans' hq hq')))
  · refine hg.avoid w0 w1 p0 p1 q1 q2 ?_ s1.le s2.le
    simp only [List.nodup_cons, List.mem_cons, List.not_mem_nil, or_false, not_or, not_false_iff, List.nodup_nil, and_true]
    exact ⟨⟨n01, o1, o2⟩, ⟨i1, i2⟩, j1⟩
  · refine hg.avoid w0 w1 p0 p1 q2 q3 ?_ s1.le s2.le
    simp only [List.nodup_cons, List.mem_cons, List.not_mem_nil, or_false, not_or, not_false_iff, List.nodup_nil, and_true]
    exact ⟨⟨n01, o2, o3⟩, ⟨i2, i3⟩, j3⟩
  · refine hg.avoid w0 w1 p0 p1 q1 q3 ?_ s1.le s2.le
    simp only [List.nodup_cons, List.mem_cons, List.not_mem_nil, or_false, not_or, not_false_iff, List.nodup_nil, and_true]
    exact ⟨⟨n01, o1, o3⟩, ⟨i1, i3⟩, j2⟩

/-- The vertices of a tet are on the inner sides of its planes. -/
theorem corner_nonneg {a b c d x y z w v : VId} (hD : 0 < D h (a, b, c, d)) (hq : SameTet (a, b, c, d) (x, y, z, w))
    (hv : v = a ∨ v = b ∨ v = c ∨ v = d) : 0 ≤ F h (x, y, z, w) (h v) ∧ (v = w → 0 < F h (x, y, z, w) (h v)) := by
  rw [← D_same hq] at hD
  have hD : 0 < F h (x, y, z, w) (h w) := hD
  refine ⟨?_, fun hvw => by rw [hvw]; exact hD⟩
  rcases sameTet_in hq hv with rfl | rfl | rfl | rfl
  · exact (self0 (h v) (h y) (h z)).ge
  · exact (self1 (h x) (h v) (h z)).ge
  · exact (self2 (h x) (h y) (h v)).ge
  · exact hD.le

/-- From inside an edge towards the other two vertices of a tet. -/
theorem Towards.edge {v0 v1 x y : VId} (hD : 0 < D h (v0, v1, x, y)) {k0 k1 : K} (t1 : 0 < k0) (t0 : 0 < k1) :
    Towards h (v0, v1, x, y) (k0 • h v0 + k1 • h v1) (h x + h y) := by
  rintro ⟨p, q, r, s⟩ hq
  obtain ⟨a0, b0⟩ := corner_nonneg (v := v0) hD hq (by simp)
  obtain ⟨a1, b1⟩ := corner_nonneg (v := v1) hD hq (by simp)
  obtain ⟨ax, bx⟩ := corner_nonneg (v := x) hD hq (by simp)
  obtain ⟨ay, b_y⟩ := corner_nonneg (v := y) hD hq (by simp)
  rw [map_add, map_add, map_smul, map_smul, smul_eq_mul, smul_eq_mul]
  have m0 := mul_nonneg t1.le a0
  have m1 := mul_nonneg t0.le a1
  rcases sameTet_in (SameTet.symm' hq) (v := s) (by simp) with h1 | h1 | h1 | h1
  · have := mul_pos t1 (b0 h1.symm)
    left
    linarith
  · have := mul_pos t0 (b1 h1.symm)
    left
    linarith
  · have := bx h1.symm
    rcases (add_nonneg m0 m1).lt_or_eq with h2 | h2
    · exact .inl h2
    · exact .inr ⟨h2.symm, by linarith⟩
  · have := b_y h1.symm
    rcases (add_nonneg m0 m1).lt_or_eq with h2 | h2
    · exact .inl h2
    · exact .inr ⟨h2.symm, by linarith⟩

/-- An edge of a tet meets no triangle. -/
theorem Generic.edge_no_tri (hg : Generic h wt S P) {v0 v1 x y : VId} (he : S (v0, v1, x, y)) {a b c d : VId}
    (hS : S (a, b, c, d)) {t : K} (hw : 0 < wt (pt h v0 v1 t)) (hh : Hits h v0 v1 a b c t) : False := by
  obtain ⟨e, he'⟩ := hg.adj _ _ _ _ hS
  have hD := hg.fan.pos _ he
  have z1 : F h (v0, v1, x, y) (pt h v0 v1 t) = 0 := by
    rw [F_pt]
    change _ * det (h v0) (h v1) (h x) (h v0) + _ * det (h v0) (h v1) (h x) (h v1) = 0
    rw [self0, self1, mul_zero, mul_zero, add_zero]
  have z2 : F h (v1, v0, y, x) (pt h v0 v1 t) = 0 := by
    rw [F_pt]
    change _ * det (h v1) (h v0) (h y) (h v0) + _ * det (h v1) (h v0) (h y) (h v1) = 0
    rw [self0, self1, mul_zero, mul_zero, add_zero]
  have t1 : 0 < 1 - t := by linarith [hh.2.1]
  have ht : Towards h (v0, v1, x, y) (pt h v0 v1 t) (h x + h y) := by
    rw [show pt h v0 v1 t = (1 - t) • h v0 + t • h v1 by simp only [pt]; module]
    exact .edge hD t1 hh.1
  -- two triangles of the tet would contain the point
  have fin : ∀ {a b c d}, S (a, b, c, d) → Hits h v0 v1 a b c t → SameTet (v0, v1, x, y) (a, b, c, d) → False := by
    intro a b c d hS hh hs
    have hD' := hg.fan.pos _ hS
    have k1 : d = y := by
      rcases hh.2.2.others hD' (SameTet.symm' hs) with h1 | ⟨-, h1 | h1 | h1⟩
      · exact absurd z1 h1.ne'
      all_goals cases h1; rfl
    have k2 : d = x := by
      rcases hh.2.2.others hD' (SameTet.trans' (SameTet.symm' hs) (mem_twelve.1 (by simp [twelve] : (v1, v0, y, x) ∈ _))) with
        h1 | ⟨-, h1 | h1 | h1⟩
      · exact absurd z2 h1.ne'
      all_goals cases h1; rfl
    have := (D_nodup hD.ne').2.2.2.2.2
    exact this (k2.symm.trans k1)
  rcases hg.fan.meets he hS he' hw hh.2.2 ht with hs | hs
  · exact fin hS hh hs
  · exact fin he' hh.swap hs

theorem Generic.edge_no_hit (hg : Generic h wt S P) {v0 v1 x y : VId} (w0 : 0 < wt (h v0)) (w1 : 0 < wt (h v1))
    (he : S (v0, v1, x, y)) {a b c d : VId} (hS : S (a, b, c, d)) {t : K} (hh : Hits h v0 v1 a b c t) : False :=
  hg.edge_no_tri he hS (pt_wt w0 w1 hh.1.le hh.2.1.le) hh

/-- The segment leaves the tets around its start through a triangle, unless it is an edge. -/
theorem Generic.first (hg : Generic h wt S P) {v0 v1 : VId} (w0 : 0 < wt (h v0)) (w1 : 0 < wt (h v1)) (hne : v0 ≠ v1)
    (h0 : ∃ x y z, S (x, y, z, v0)) (h1 : ∃ x y z, S (x, y, z, v1)) (hno : ∀ x y, ¬ S (v0, v1, x, y)) :
    ∃ a b c t, S (a, b, c, v0) ∧ Hits h v0 v1 a b c t := by
  have p0 : P v0 := by
    obtain ⟨x, y, z, hx⟩ := h0
    exact (hg.verts _ _ _ _ hx).2.2.2
  have p1 : P v1 := by
    obtain ⟨x, y, z, hx⟩ := h1
    exact (hg.verts _ _ _ _ hx).2.2.2
  have dist : ∀ {x y z w}, S (x, y, z, w) → x ≠ y ∧ x ≠ z ∧ x ≠ w ∧ y ≠ z ∧ y ≠ w ∧ z ≠ w := fun hs =>
    D_nodup (h := h) (hg.fan.pos _ hs).ne'
  have gen3 : ∀ {x y z w v}, S (x, y, z, w) → P v → F h (x, y, z, w) (h v) = 0 → v = x ∨ v = y ∨ v = z := by
    intro x y z w v hs hv hz
    by_contra hn
    simp only [not_or] at hn
    obtain ⟨j1, j2, -, j3, -⟩ := dist hs
    obtain ⟨q1, q2, q3, -⟩ := hg.verts _ _ _ _ hs
    refine hg.gen x y z v ?_ q1 q2 q3 hv hz
    simp only [List.nodup_cons, List.mem_cons, List.not_mem_nil, or_false, not_or, not_false_iff, List.nodup_nil, and_true]
    exact ⟨⟨j1, j2, Ne.symm hn.1⟩, ⟨j3, Ne.symm hn.2.1⟩, Ne.symm hn.2.2⟩
  -- both ends in one triangle
  have both : ∀ {x y z w}, S (x, y, z, w) → (v0 = x ∨ v0 = y ∨ v0 = z) → (v1 = x ∨ v1 = y ∨ v1 = z) → False := by
    intro x y z w hs i0 i1
    have t (q : V4) (hq : q ∈ twelve (x, y, z, w)) : S q := hg.fan.closed _ _ hs (mem_twelve.1 hq)
    rcases i0 with rfl | rfl | rfl <;> rcases i1 with rfl | rfl | rfl
    · exact hne rfl
    · exact hno _ _ hs
    · exact hno _ _ (t (v0, v1, w, y) (by simp [twelve]))
    · exact hno _ _ (t (v0, v1, w, z) (by simp [twelve]))
    · exact hne rfl
    · exact hno _ _ (t (v0, v1, x, w) (by simp [twelve]))
    · exact hno _ _ (t (v0, v1, y, w) (by simp [twelve]))
    · exact hno _ _ (t (v0, v1, w, x) (by simp [twelve]))
    · exact hne rfl
  -- a little on the way
  let L := hg.fan.fin.toFinset.toList
  have hL : ∀ q, q ∈ L ↔ S q := by simp [L]
  let sg : V4 → Vec4 K →ₗ[K] K := fun q => if 0 < F h q (h v0) ∨ F h q (h v0) = 0 ∧ 0 < F h q (h v1) then F h q else -F h q
  obtain ⟨e, he, hsm⟩ := small (L.map sg) (h v0) (h v1) (by
    intro g hgm
    obtain ⟨⟨x, y, z, w⟩, hq, rfl⟩ := List.mem_map.1 hgm
    have hq := (hL _).1 hq
    by_cases hc : 0 < F h (x, y, z, w) (h v0) ∨ F h (x, y, z, w) (h v0) = 0 ∧ 0 < F h (x, y, z, w) (h v1)
    · simp only [sg, if_pos hc]
      exact hc
    · simp only [sg, if_neg hc, LinearMap.neg_apply, neg_pos, neg_eq_zero]
      simp only [not_or, not_and, not_lt] at hc
      rcases hc.1.lt_or_eq with h2 | h2
      · exact .inl h2
      · refine .inr ⟨h2, (hc.2 h2).lt_of_ne fun h3 => ?_⟩
        exact both hq (gen3 hq p0 h2) (gen3 hq p1 h3))
  have hsm : ∀ q, S q → 0 < sg q (h v0 + e • h v1) := fun q hq =>
    hsm e he le_rfl _ (List.mem_map_of_mem ((hL q).2 hq))
  set x := h v0 + e • h v1 with hx
  have free : Free h S x := by
    intro q hq h2
    have := hsm q hq
    simp only [sg] at this
    split_ifs at this
    · exact this.ne' h2
    · rw [LinearMap.neg_apply, h2, neg_zero] at this
      exact lt_irrefl _ this
  have wx : 0 < wt x := by
    rw [hx, map_add, map_smul, smul_eq_mul]
    have := mul_pos he w1
    linarith
  obtain ⟨p, hp, hcell, -⟩ := hg.fan.once x wx free
  have hin : ∀ q, SameTet p q → 0 < F h q (h v0) ∨ F h q (h v0) = 0 ∧ 0 < F h q (h v1) := by
    intro q hq
    by_contra hc
    have h2 := hsm q (hg.fan.closed _ _ hp hq)
    simp only [sg, if_neg hc, LinearMap.neg_apply] at h2
    linarith [Cell_iff.1 hcell q hq]
  -- the start is a vertex of the tet
  obtain ⟨a, b, c, hs⟩ : ∃ a b c, SameTet p (a, b, c, v0) := by
    by_contra hcon
    push Not at hcon
    obtain ⟨x, y, z, hxs⟩ := h0
    refine hg.fan.vertex_outside hxs w0 hp (Cell_iff.2 fun q hq => (hin q hq).resolve_right fun h2 => ?_)
    obtain ⟨x, y, z, w⟩ := q
    have t (q : V4) (hq' : q ∈ twelve (x, y, z, w)) : SameTet p q := SameTet.trans' hq (mem_twelve.1 hq')
    rcases gen3 (hg.fan.closed _ _ hp hq) p0 h2.1 with rfl | rfl | rfl
    · exact hcon _ _ _ (t (y, w, z, v0) (by simp [twelve]))
    · exact hcon _ _ _ (t (x, z, w, v0) (by simp [twelve]))
    · exact hcon _ _ _ (t (x, w, y, v0) (by simp [twelve]))
  have hS := hg.fan.closed _ _ hp hs
  have hD := hg.fan.pos _ hS
  have hD' : det (h a) (h b) (h c) (h v0) ≠ 0 := hD.ne'
  have t (q : V4) (hq' : q ∈ twelve (a, b, c, v0)) : SameTet p q := SameTet.trans' hs (mem_twelve.1 hq')
  obtain ⟨ka, kb, kc, kd, hv⟩ := basis hD' (h v1)
  have c4 : F h (a, b, c, v0) (h v1) = kd * D h (a, b, c, v0) := by
    rw [hv]
    simp only [F, fun3_apply, det_add, det_smul, self0, self1, self2, D]
    ring
  have c1 : F h (a, v0, b, c) (h v1) = kc * D h (a, b, c, v0) := by
    rw [hv]
    simp only [F, fun3_apply, det_add, det_smul, self0, self1, self2, D]
    rw [show det (h a) (h v0) (h b) (h c) = det (h a) (h b) (h c) (h v0) by simp only [det, det3]; ring]
    ring
  have c2 : F h (b, v0, c, a) (h v1) = ka * D h (a, b, c, v0) := by
    rw [hv]
    simp only [F, fun3_apply, det_add, det_smul, self0, self1, self2, D]
    rw [show det (h b) (h v0) (h c) (h a) = det (h a) (h b) (h c) (h v0) by simp only [det, det3]; ring]
    ring
  have c3 : F h (c, v0, a, b) (h v1) = kb * D h (a, b, c, v0) := by
    rw [hv]
    simp only [F, fun3_apply, det_add, det_smul, self0, self1, self2, D]
    rw [show det (h c) (h v0) (h a) (h b) = det (h a) (h b) (h c) (h v0) by simp only [det, det3]; ring]
    ring
  have q1 := (hin (a, v0, b, c) (t _ (by simp [twelve]))).resolve_left fun h2 => h2.ne' (self1 ..)
  have q2 := (hin (b, v0, c, a) (t _ (by simp [twelve]))).resolve_left fun h2 => h2.ne' (self1 ..)
  have q3 := (hin (c, v0, a, b) (t _ (by simp [twelve]))).resolve_left fun h2 => h2.ne' (self1 ..)
  have q1 := q1.2
  have q2 := q2.2
  have q3 := q3.2
  rw [c1, mul_pos_iff_of_pos_right hD] at q1
  rw [c2, mul_pos_iff_of_pos_right hD] at q2
  rw [c3, mul_pos_iff_of_pos_right hD] at q3
  -- the end is not inside
  have hkd : kd < 0 := by
    by_contra hk
    rcases (not_lt.1 hk).lt_or_eq with hk | hk
    · obtain ⟨x, y, z, hx⟩ := h1
      refine hg.fan.vertex_outside hx w1 hS ⟨?_, ?_, ?_, ?_⟩
      · have := mul_pos hk hD; rw [← c4] at this; exact this
      · have := mul_pos q1 hD; rw [← c1] at this; exact this
      · have := mul_pos q3 hD
        rw [← c3] at this
        have e : det (h a) (h c) (h v0) (h v1) = det (h c) (h v0) (h a) (h v1) := by simp only [det, det3]; ring
        change 0 < det (h a) (h c) (h v0) (h v1)
        rw [e]
        exact this
      · have := mul_pos q2 hD; rw [← c2] at this; exact this
    · rw [← hk, zero_mul] at c4
      have hm := gen3 hS p1 c4
      have t (q : V4) (hq' : q ∈ twelve (a, b, c, v0)) : S q := hg.fan.closed _ _ hS (mem_twelve.1 hq')
      rcases hm with rfl | rfl | rfl
      · exact hno _ _ (t (v0, v1, c, b) (by simp [twelve]))
      · exact hno _ _ (t (v0, v1, a, c) (by simp [twelve]))
      · exact hno _ _ (t (v0, v1, b, a) (by simp [twelve]))
  have hd : 0 < 1 - kd := by linarith
  have hT : 0 < (1 - kd)⁻¹ := inv_pos.2 hd
  refine ⟨a, b, c, (1 - kd)⁻¹, hS, hT, inv_lt_one_of_one_lt₀ (by linarith), (1 - kd)⁻¹ * ka, (1 - kd)⁻¹ * kb, (1 - kd)⁻¹ * kc,
    mul_pos hT q2, mul_pos hT q3, mul_pos hT q1, ?_⟩
  have e1 : (1 - (1 - kd)⁻¹) = -((1 - kd)⁻¹ * kd) := by
    have : (1 - kd)⁻¹ * (1 - kd) = 1 := inv_mul_cancel₀ hd.ne'
    linear_combination -this
  have : pt h v0 v1 (1 - kd)⁻¹ = (1 - (1 - kd)⁻¹) • h v0 + (1 - kd)⁻¹ • h v1 := by simp only [pt]; module
  rw [this, e1, hv]
  module

/-! ## All triangles along the segment -/

/-- One triangle after another one: both belong to the tet behind the first one. -/
def Ahead (S : V4 → Prop) (g g' : V3) : Prop :=
  ∃ e w, S (g.2.1, g.1, g.2.2, e) ∧ SameTet (g.2.1, g.1, g.2.2, e) (g'.1, g'.2.1, g'.2.2, w) ∧ w ≠ e

/-- The segment ends behind the triangle. -/
def Done (h : VId → Vec4 K) (S : V4 → Prop) (v0 v1 : VId) (g : V3) : Prop :=
  ∃ e, S (g.2.1, g.1, g.2.2, e) ∧ (v1 ∈ [g.1, g.2.1, g.2.2, e] ∨
    ∀ x y z w t, SameTet (g.2.1, g.1, g.2.2, e) (x, y, z, w) → w ≠ e → v0 ∉ [x, y, z] → ¬ Hits h v0 v1 x y z t)

def HitsAt (h : VId → Vec4 K) (v0 v1 : VId) (g : V3) (t : K) : Prop := Hits h v0 v1 g.1 g.2.1 g.2.2 t

/-- The triangle in any order. -/
def orders3 (g : V3) : List V3 :=
  [(g.1, g.2.1, g.2.2), (g.2.1, g.2.2, g.1), (g.2.2, g.1, g.2.1), (g.2.1, g.1, g.2.2), (g.1, g.2.2, g.2.1), (g.2.2, g.2.1, g.1)]

theorem Generic.behind (hg : Generic h wt S P) {v0 v1 : VId} (w0 : 0 < wt (h v0)) (w1 : 0 < wt (h v1)) (p0 : P v0)
    (h1 : ∃ x y z, S (x, y, z, v1)) : ∀ (l : List V3) (g : V3) (t : K), HitsAt h v0 v1 g t →
      det (h g.1) (h g.2.1) (h g.2.2) (h v1) < 0 → (g :: l).IsChain (Ahead S) → (∀ g' ∈ l, ∃ t, HitsAt h v0 v1 g' t) →
      ((∀ g', (g :: l).getLast? = some g' → Done h S v0 v1 g') → ∀ a b c d s, S (a, b, c, d) → Hits h v0 v1 a b c s → t < s → ∃ g' ∈ l, (a, b, c) ∈ orders3 g') ∧
      (∀ g' ∈ l, ∀ s, HitsAt h v0 v1 g' s → t < s) ∧
      (g :: l).Pairwise fun g' g'' => ∀ s s', HitsAt h v0 v1 g' s → HitsAt h v0 v1 g'' s' → s < s'
  | [], g, t, ht, hv, _, _ => by
    refine ⟨fun hd a b c d s hs hh hlt => ?_, by simp, by simp⟩
    obtain ⟨e, hS, he⟩ := hd g rfl
    exfalso
    have hve : v1 = e := by
      rcases he with he | he
      · simp only [List.mem_cons, List.not_mem_nil, or_false] at he
        rcases he with h2 | h2 | h2 | h2
        · rw [h2, self0] at hv; exact absurd hv (lt_irrefl _)
        · rw [h2, self1] at hv; exact absurd hv (lt_irrefl _)
        · rw [h2, self2] at hv; exact absurd hv (lt_irrefl _)
        · exact h2
      · by_contra hne
        obtain ⟨x, y, z, w, t', k1, k2, k3, k4⟩ := hg.exit w0 w1 p0 h1 hS ht hv hne
        exact he x y z w t' k1 k2 k3 k4
    rw [← hve] at hS
    exact hg.no_hit w0 w1 hS (hg.stop hS ht hlt hh.2.1) hs hh
  | g1 :: l, g, t, ht, hv, hc, hh => by
    obtain ⟨⟨e, w, hS, hs, hne⟩, hc⟩ := List.isChain_cons_cons.1 hc
    obtain ⟨t1, ht1⟩ := hh g1 List.mem_cons_self
    obtain ⟨k1, k2, k3⟩ := hg.step hS ht hv hs hne ht1
    have hS1 := hg.fan.closed _ _ hS hs
    obtain ⟨i1, i2, i3⟩ := hg.behind w0 w1 p0 h1 l g1 t1 ht1 k2 hc (fun g' hg' => hh g' (List.mem_cons_of_mem _ hg'))
    have uniq : ∀ {g : V3} {t s : K}, HitsAt h v0 v1 g t → HitsAt h v0 v1 g s → det (h g.1) (h g.2.1) (h g.2.2) (h v1) < 0 → s = t := by
      intro g t s a1 a2 a3
      have z1 := a1.2.2.plane (d := g.1)
      have z2 := a2.2.2.plane (d := g.1)
      rw [F_pt] at z1 z2
      have a3 : F h (g.1, g.2.1, g.2.2, g.1) (h v1) < 0 := a3
      have t1 : 0 < 1 - t := by linarith [a1.2.1]
      generalize F h (g.1, g.2.1, g.2.2, g.1) (h v0) = u at *
      generalize F h (g.1, g.2.1, g.2.2, g.1) (h v1) = r at *
      have : r * (s - t) = 0 := by linear_combination (1 - t) * z2 - (1 - s) * z1
      rcases mul_eq_zero.1 this with h2 | h2
      · exact absurd h2 a3.ne
      · linarith
    have j2 : ∀ g' ∈ g1 :: l, ∀ s, HitsAt h v0 v1 g' s → t < s := by
      intro g' hg' s hs'
      rcases List.mem_cons.1 hg' with rfl | hg'
      · rw [uniq ht1 hs' k2]
        exact k1
      · exact k1.trans (i2 g' hg' s hs')
    refine ⟨fun hd a b c d s hs' hh' hlt => ?_, j2, List.pairwise_cons.2 ⟨fun g' hg' s s' a1 a2 => ?_, i3⟩⟩
    · rcases lt_trichotomy s t1 with h2 | h2 | h2
      · exact (hg.no_hit w0 w1 hS (k3 s hlt h2) hs' hh').elim
      · rw [h2] at hh'
        exact ⟨g1, List.mem_cons_self, hg.same_hit w0 w1 hS1 ht1 hs' hh'⟩
      · obtain ⟨g', k4, k5⟩ := i1 (fun g' hg' => hd g' (by rw [List.getLast?_cons_cons]; exact hg')) a b c d s hs' hh' h2
        exact ⟨g', List.mem_cons_of_mem _ k4, k5⟩
    · rw [uniq ht a1 hv]
      exact j2 g' hg' s' a2

/-- From the start on, the triangles come in order, and if the segment ends behind the last one, there are no others. -/
theorem Generic.along (hg : Generic h wt S P) {v0 v1 : VId} (w0 : 0 < wt (h v0)) (w1 : 0 < wt (h v1)) (p0 : P v0)
    (h1 : ∃ x y z, S (x, y, z, v1)) {l : List V3} {g : V3} (hS : S (g.1, g.2.1, g.2.2, v0)) (hc : (g :: l).IsChain (Ahead S))
    (hh : ∀ g' ∈ g :: l, ∃ t, HitsAt h v0 v1 g' t) :
    ((∀ g', (g :: l).getLast? = some g' → Done h S v0 v1 g') → ∀ a b c d s, S (a, b, c, d) → Hits h v0 v1 a b c s → ∃ g' ∈ g :: l, (a, b, c) ∈ orders3 g') ∧
      (g :: l).Pairwise fun g' g'' => ∀ s s', HitsAt h v0 v1 g' s → HitsAt h v0 v1 g'' s' → s < s' := by
  obtain ⟨t, ht⟩ := hh g List.mem_cons_self
  obtain ⟨k1, k2⟩ := hg.start hS ht
  obtain ⟨i1, i2, i3⟩ := hg.behind w0 w1 p0 h1 l g t ht k1 hc (fun g' hg' => hh g' (List.mem_cons_of_mem _ hg'))
  refine ⟨fun hd a b c d s hs hh' => ?_, i3⟩
  rcases lt_trichotomy s t with h2 | h2 | h2
  · exact (hg.no_hit w0 w1 hS (k2 s hh'.1 h2) hs hh').elim
  · rw [h2] at hh'
    exact ⟨g, List.mem_cons_self, hg.same_hit w0 w1 hS ht hs hh'⟩
  · obtain ⟨g', k4, k5⟩ := i1 hd a b c d s hs hh' h2
    exact ⟨g', List.mem_cons_of_mem _ k4, k5⟩

end Tet
