import Verif.Spec.Geo
import Verif.Spec.Walker
import Mathlib.Tactic.Ring
import Mathlib.Tactic.LinearCombination
import Mathlib.Tactic.Linarith
import Mathlib.Tactic.FieldSimp
import Mathlib.Tactic.Positivity

/-!
# Identities of determinants and their consequences
-/

namespace Tet
open Spec

section field
variable {K : Type} [Field K]

theorem orient_swap01 (a b c d : Pt K) : orient3d b a c d = -orient3d a b c d := by
  simp only [orient3d, Pt.sub, Pt.dot, Pt.cross]; ring
theorem orient_swap12 (a b c d : Pt K) : orient3d a c b d = -orient3d a b c d := by
  simp only [orient3d, Pt.sub, Pt.dot, Pt.cross]; ring
theorem orient_swap23 (a b c d : Pt K) : orient3d a b d c = -orient3d a b c d := by
  simp only [orient3d, Pt.sub, Pt.dot, Pt.cross]; ring
theorem orient_same01 (a c d : Pt K) : orient3d a a c d = 0 := by
  simp only [orient3d, Pt.sub, Pt.dot, Pt.cross]; ring
theorem orient_same12 (a c d : Pt K) : orient3d a c c d = 0 := by
  simp only [orient3d, Pt.sub, Pt.dot, Pt.cross]; ring
theorem orient_same23 (a c d : Pt K) : orient3d a c d d = 0 := by
  simp only [orient3d, Pt.sub, Pt.dot, Pt.cross]; ring

/-- The determinant is affine in the last argument. -/
theorem orient_affine2 {a b c p q x : Pt K} {k l : K} (h : k + l = 1) (hx : comb [(k, p), (l, q)] = x) :
    orient3d a b c x = k * orient3d a b c p + l * orient3d a b c q := by
  subst hx
  obtain rfl : l = 1 - k := by linear_combination h
  simp only [orient3d, Pt.sub, Pt.dot, Pt.cross, comb, Pt.add, Pt.smul]; ring

theorem orient_affine3 {a b c p q r x : Pt K} {k l n : K} (h : k + l + n = 1)
    (hx : comb [(k, p), (l, q), (n, r)] = x) :
    orient3d a b c x = k * orient3d a b c p + l * orient3d a b c q + n * orient3d a b c r := by
  subst hx
  obtain rfl : n = 1 - k - l := by linear_combination h
  simp only [orient3d, Pt.sub, Pt.dot, Pt.cross, comb, Pt.add, Pt.smul]; ring

theorem orient_affine4 {a b c p q r s x : Pt K} {k l n o : K} (h : k + l + n + o = 1)
    (hx : comb [(k, p), (l, q), (n, r), (o, s)] = x) :
    orient3d a b c x = k * orient3d a b c p + l * orient3d a b c q + n * orient3d a b c r +
      o * orient3d a b c s := by
  subst hx
  obtain rfl : o = 1 - k - l - n := by linear_combination h
  simp only [orient3d, Pt.sub, Pt.dot, Pt.cross, comb, Pt.add, Pt.smul]; ring

/-- The volumes of the four tets joining a point to the faces add up. -/
theorem orient_split (a b c d p : Pt K) :
    orient3d p b c d + orient3d a p c d + orient3d a b p d + orient3d a b c p = orient3d a b c d := by
  simp only [orient3d, Pt.sub, Pt.dot, Pt.cross]; ring

/-- Every point is the combination of the corners with these volumes. -/
theorem orient_cramer (a b c d p : Pt K) :
    comb [(orient3d p b c d, a), (orient3d a p c d, b), (orient3d a b p d, c), (orient3d a b c p, d)] =
      Pt.smul (orient3d a b c d) p := by
  simp only [orient3d, Pt.sub, Pt.dot, Pt.cross, comb, Pt.add, Pt.smul, Pt.mk.injEq]
  refine ⟨?_, ?_, ?_⟩ <;> ring

/-- The five numbers of `tri_edge_bary` are an affine dependency. -/
theorem bary_sum (p0 p1 p2 p3 p4 : Pt K) :
    orient3d p1 p2 p3 p4 + orient3d p2 p0 p3 p4 + orient3d p0 p1 p3 p4 =
      orient3d p0 p1 p2 p4 + orient3d p2 p1 p0 p3 := by
  simp only [orient3d, Pt.sub, Pt.dot, Pt.cross]; ring

theorem bary_comb (p0 p1 p2 p3 p4 : Pt K) :
    comb [(orient3d p1 p2 p3 p4, p0), (orient3d p2 p0 p3 p4, p1), (orient3d p0 p1 p3 p4, p2)] =
      comb [(orient3d p0 p1 p2 p4, p3), (orient3d p2 p1 p0 p3, p4)] := by
  simp only [orient3d, Pt.sub, Pt.dot, Pt.cross, comb, Pt.add, Pt.smul, Pt.mk.injEq]
  refine ⟨?_, ?_, ?_⟩ <;> ring

theorem comb_smul (k : K) (l : List (K × Pt K)) : comb (l.map fun x => (k * x.1, x.2)) = Pt.smul k (comb l) := by
  induction l with
  | nil => simp [comb, Pt.smul]
  | cons x l ih =>
    obtain ⟨a, p⟩ := x
    simp only [List.map_cons, comb, ih, Pt.add, Pt.smul, Pt.mk.injEq]
    refine ⟨?_, ?_, ?_⟩ <;> ring

theorem pt_ne {n : Pt K} : n ≠ ⟨0, 0, 0⟩ ↔ n.x ≠ 0 ∨ n.y ≠ 0 ∨ n.z ≠ 0 := by
  obtain ⟨x, y, z⟩ := n
  simp only [ne_eq, Pt.mk.injEq]
  tauto

/-- Some nonzero vector is orthogonal to a given one ... -/
theorem exists_normal1 (u : Pt K) : ∃ n : Pt K, n ≠ ⟨0, 0, 0⟩ ∧ n.dot u = 0 := by
  by_cases hx : u.x = 0
  · exact ⟨⟨1, 0, 0⟩, by simp, by simp [Pt.dot, hx]⟩
  · exact ⟨⟨u.y, -u.x, 0⟩, by simp [hx], by simp only [Pt.dot]; ring⟩

/-- ... and to two given ones. -/
theorem exists_normal (u v : Pt K) : ∃ n : Pt K, n ≠ ⟨0, 0, 0⟩ ∧ n.dot u = 0 ∧ n.dot v = 0 := by
  by_cases h : u.cross v = ⟨0, 0, 0⟩
  · simp only [Pt.cross, Pt.mk.injEq] at h
    obtain ⟨h1, h2, h3⟩ := h
    by_cases hu : u = ⟨0, 0, 0⟩
    · obtain ⟨n, hn, hv⟩ := exists_normal1 v
      exact ⟨n, hn, by simp [Pt.dot, hu], hv⟩
    · obtain ⟨n, hn, hv⟩ := exists_normal1 u
      refine ⟨n, hn, hv, ?_⟩
      simp only [Pt.dot] at hv ⊢
      rcases pt_ne.1 hu with hx | hx | hx
      · refine mul_left_cancel₀ hx ?_
        linear_combination v.x * hv + n.y * h3 - n.z * h2
      · refine mul_left_cancel₀ hx ?_
        linear_combination v.y * hv - n.x * h3 + n.z * h1
      · refine mul_left_cancel₀ hx ?_
        linear_combination v.z * hv + n.x * h2 - n.y * h1
  · exact ⟨_, h, by simp only [Pt.dot, Pt.cross]; ring, by simp only [Pt.dot, Pt.cross]; ring⟩

theorem dot_comb2 {n p q x : Pt K} {k l : K} (hx : comb [(k, p), (l, q)] = x) :
    n.dot x = k * n.dot p + l * n.dot q := by
  subst hx
  simp only [Pt.dot, comb, Pt.add, Pt.smul]; ring

theorem dot_comb3 {n p q r x : Pt K} {k l o : K} (hx : comb [(k, p), (l, q), (o, r)] = x) :
    n.dot x = k * n.dot p + l * n.dot q + o * n.dot r := by
  subst hx
  simp only [Pt.dot, comb, Pt.add, Pt.smul]; ring

theorem dot_sub (n p q : Pt K) : n.dot (p.sub q) = n.dot p - n.dot q := by
  simp only [Pt.dot, Pt.sub]; ring

/-- Three points on a line: all differences are orthogonal to a vector that is orthogonal to one
nonzero difference. -/
theorem exists_direction (p0 p1 p2 : Pt K) (h : (p1.sub p0).cross (p2.sub p0) = ⟨0, 0, 0⟩) :
    ∃ u : Pt K, ∀ n : Pt K, n.dot u = 0 → n.dot p1 = n.dot p0 ∧ n.dot p2 = n.dot p0 := by
  by_cases h1 : p1.sub p0 = ⟨0, 0, 0⟩
  · refine ⟨p2.sub p0, fun n hn => ⟨?_, ?_⟩⟩
    · have := dot_sub n p1 p0
      rw [h1] at this
      simp only [Pt.dot, mul_zero, add_zero] at this ⊢
      linear_combination -this
    · rw [dot_sub] at hn
      linear_combination hn
  · refine ⟨p1.sub p0, fun n hn => ⟨?_, ?_⟩⟩
    · rw [dot_sub] at hn
      linear_combination hn
    · have h2 : n.dot (p2.sub p0) = 0 := by
        simp only [Pt.cross, Pt.mk.injEq] at h
        obtain ⟨e1, e2, e3⟩ := h
        simp only [Pt.dot] at hn ⊢
        rcases pt_ne.1 h1 with hx | hx | hx
        · refine mul_left_cancel₀ hx ?_
          linear_combination (p2.sub p0).x * hn + n.y * e3 - n.z * e2
        · refine mul_left_cancel₀ hx ?_
          linear_combination (p2.sub p0).y * hn - n.x * e3 + n.z * e1
        · refine mul_left_cancel₀ hx ?_
          linear_combination (p2.sub p0).z * hn + n.x * e2 - n.y * e1
      rw [dot_sub] at h2
      linear_combination h2

/-- The determinant in terms of the normal of the first three points. -/
theorem orient_normal (p0 p1 p2 p : Pt K) :
    orient3d p0 p1 p2 p = ((p1.sub p0).cross (p2.sub p0)).dot p0 - ((p1.sub p0).cross (p2.sub p0)).dot p := by
  simp only [orient3d, Pt.sub, Pt.dot, Pt.cross]; ring

end field

section ordered
variable {K : Type} [Field K] [LinearOrder K] [IsStrictOrderedRing K]

/-- All five numbers are positive multiples of the crossing's coordinates. -/
theorem crossing_scale {p0 p1 p2 p3 p4 x : Pt K} (hn : ¬ Coplanar [p0, p1, p2, p3, p4])
    (h1 : InTri p0 p1 p2 x) (h2 : InSeg p3 p4 x) :
    (0 < orient3d p1 p2 p3 p4 ∧ 0 < orient3d p2 p0 p3 p4 ∧ 0 < orient3d p0 p1 p3 p4 ∧
      0 < orient3d p0 p1 p2 p4 ∧ 0 < orient3d p2 p1 p0 p3) ∨
    (orient3d p1 p2 p3 p4 < 0 ∧ orient3d p2 p0 p3 p4 < 0 ∧ orient3d p0 p1 p3 p4 < 0 ∧
      orient3d p0 p1 p2 p4 < 0 ∧ orient3d p2 p1 p0 p3 < 0) := by
  obtain ⟨a0, a1, a2, ha0, ha1, ha2, has, hax⟩ := h1
  obtain ⟨b3, b4, hb3, hb4, hbs, hbx⟩ := h2
  have s1 : ∀ a b c d : Pt K, orient3d b a d c = orient3d a b c d := by
    intro a b c d; rw [orient_swap01, orient_swap23, neg_neg]
  -- the point is in the plane of the triangle
  have e1 : b3 * orient3d p2 p1 p0 p3 + b4 * orient3d p2 p1 p0 p4 = 0 := by
    rw [← orient_affine2 hbs hbx, orient_affine3 has hax]
    simp only [orient3d, Pt.sub, Pt.dot, Pt.cross]; ring
  have f4 : orient3d p2 p1 p0 p4 = -orient3d p0 p1 p2 p4 := by
    simp only [orient3d, Pt.sub, Pt.dot, Pt.cross]; ring
  have e3 : b3 * orient3d p2 p1 p0 p3 = b4 * orient3d p0 p1 p2 p4 := by
    rw [f4] at e1; linear_combination e1
  -- on the line of the segment
  have g : ∀ a b : Pt K, orient3d a b p3 x = b4 * orient3d a b p3 p4 := by
    intro a b
    rw [orient_affine2 hbs hbx, orient_same23]; ring
  have k0 : b4 * orient3d p1 p2 p3 p4 = a0 * orient3d p2 p1 p0 p3 := by
    rw [← g, orient_affine3 has hax]
    simp only [orient3d, Pt.sub, Pt.dot, Pt.cross]; ring
  have k1 : b4 * orient3d p2 p0 p3 p4 = a1 * orient3d p2 p1 p0 p3 := by
    rw [← g, orient_affine3 has hax]
    simp only [orient3d, Pt.sub, Pt.dot, Pt.cross]; ring
  have k2 : b4 * orient3d p0 p1 p3 p4 = a2 * orient3d p2 p1 p0 p3 := by
    rw [← g, orient_affine3 has hax]
    simp only [orient3d, Pt.sub, Pt.dot, Pt.cross]; ring
  have hne : orient3d p2 p1 p0 p3 ≠ 0 := by
    intro h0
    apply hn
    have h4 : orient3d p0 p1 p2 p4 = 0 := by
      rw [h0, mul_zero] at e3
      exact (mul_eq_zero.1 e3.symm).resolve_left hb4.ne'
    have h3 : orient3d p0 p1 p2 p3 = 0 := by
      have : orient3d p0 p1 p2 p3 = -orient3d p2 p1 p0 p3 := by
        simp only [orient3d, Pt.sub, Pt.dot, Pt.cross]; ring
      rw [this, h0, neg_zero]
    by_cases hc : (p1.sub p0).cross (p2.sub p0) = ⟨0, 0, 0⟩
    · obtain ⟨u, hu⟩ := exists_direction p0 p1 p2 hc
      obtain ⟨n, hn0, hnu, hnv⟩ := exists_normal u (p4.sub p3)
      obtain ⟨q1, q2⟩ := hu n hnu
      rw [dot_sub] at hnv
      have q3 : n.dot p3 = n.dot p0 := by
        have r1 := dot_comb2 (n := n) hbx
        have r2 := dot_comb3 (n := n) hax
        rw [r1, q1, q2] at r2
        have : n.dot p4 = n.dot p3 := by linear_combination hnv
        rw [this] at r2
        linear_combination r2 + (n.dot p0) * has - (n.dot p3) * hbs
      have q4 : n.dot p4 = n.dot p0 := by linear_combination hnv + q3
      refine ⟨n, hn0, n.dot p0, ?_⟩
      simp [q1, q2, q3, q4]
    · refine ⟨_, hc, ((p1.sub p0).cross (p2.sub p0)).dot p0, ?_⟩
      rw [orient_normal] at h3 h4
      simp only [List.mem_cons, List.not_mem_nil, or_false, forall_eq_or_imp, forall_eq, true_and]
      refine ⟨?_, ?_, by linear_combination -h3, by linear_combination -h4⟩
      · simp only [Pt.sub, Pt.dot, Pt.cross]; ring
      · simp only [Pt.sub, Pt.dot, Pt.cross]; ring
  rcases lt_or_gt_of_ne hne with hlt | hgt
  · right
    refine ⟨?_, ?_, ?_, ?_, hlt⟩
    · by_contra hge
      have := mul_nonneg hb4.le (not_lt.1 hge)
      rw [k0] at this
      exact absurd (mul_neg_of_pos_of_neg ha0 hlt) (not_lt.2 this)
    · by_contra hge
      have := mul_nonneg hb4.le (not_lt.1 hge)
      rw [k1] at this
      exact absurd (mul_neg_of_pos_of_neg ha1 hlt) (not_lt.2 this)
    · by_contra hge
      have := mul_nonneg hb4.le (not_lt.1 hge)
      rw [k2] at this
      exact absurd (mul_neg_of_pos_of_neg ha2 hlt) (not_lt.2 this)
    · by_contra hge
      have := mul_nonneg hb4.le (not_lt.1 hge)
      rw [← e3] at this
      exact absurd (mul_neg_of_pos_of_neg hb3 hlt) (not_lt.2 this)
  · left
    refine ⟨?_, ?_, ?_, ?_, hgt⟩
    · exact (mul_pos_iff_of_pos_left hb4).1 (k0 ▸ mul_pos ha0 hgt)
    · exact (mul_pos_iff_of_pos_left hb4).1 (k1 ▸ mul_pos ha1 hgt)
    · exact (mul_pos_iff_of_pos_left hb4).1 (k2 ▸ mul_pos ha2 hgt)
    · exact (mul_pos_iff_of_pos_left hb4).1 (e3 ▸ mul_pos hb3 hgt)

/-- Five numbers of one sign give a crossing. -/
theorem crossing_of {p0 p1 p2 p3 p4 : Pt K}
    (h : (0 < orient3d p1 p2 p3 p4 ∧ 0 < orient3d p2 p0 p3 p4 ∧ 0 < orient3d p0 p1 p3 p4 ∧
      0 < orient3d p0 p1 p2 p4 ∧ 0 < orient3d p2 p1 p0 p3) ∨
    (orient3d p1 p2 p3 p4 < 0 ∧ orient3d p2 p0 p3 p4 < 0 ∧ orient3d p0 p1 p3 p4 < 0 ∧
      orient3d p0 p1 p2 p4 < 0 ∧ orient3d p2 p1 p0 p3 < 0)) :
    ∃ x, InTri p0 p1 p2 x ∧ InSeg p3 p4 x := by
  have hs := bary_sum p0 p1 p2 p3 p4
  have hc := bary_comb p0 p1 p2 p3 p4
  generalize orient3d p1 p2 p3 p4 = b0 at *
  generalize orient3d p2 p0 p3 p4 = b1 at *
  generalize orient3d p0 p1 p3 p4 = b2 at *
  generalize orient3d p0 p1 p2 p4 = b3 at *
  generalize orient3d p2 p1 p0 p3 = b4 at *
  have hS : b0 + b1 + b2 ≠ 0 := by
    rcases h with ⟨h0, h1, h2, -, -⟩ | ⟨h0, h1, h2, -, -⟩
    · positivity
    · exact (by linarith : b0 + b1 + b2 < 0).ne
  have hpos : ∀ b, ((0 < b ∧ 0 < b0 + b1 + b2) ∨ (b < 0 ∧ b0 + b1 + b2 < 0)) → 0 < (b0 + b1 + b2)⁻¹ * b := by
    rintro b (⟨h, h'⟩ | ⟨h, h'⟩)
    · positivity
    · exact mul_pos_of_neg_of_neg (inv_lt_zero.2 h') h
  have h1 := comb_smul (b0 + b1 + b2)⁻¹ [(b0, p0), (b1, p1), (b2, p2)]
  have h2 := comb_smul (b0 + b1 + b2)⁻¹ [(b3, p3), (b4, p4)]
  refine ⟨_, ⟨_, _, _, hpos b0 ?_, hpos b1 ?_, hpos b2 ?_, ?_, h1⟩, ⟨_, _, hpos b3 ?_, hpos b4 ?_, ?_, ?_⟩⟩
  · rcases h with ⟨h0, h1, h2, -, -⟩ | ⟨h0, h1, h2, -, -⟩
    · exact .inl ⟨h0, by positivity⟩
    · exact .inr ⟨h0, by linarith⟩
  · rcases h with ⟨h0, h1, h2, -, -⟩ | ⟨h0, h1, h2, -, -⟩
    · exact .inl ⟨h1, by positivity⟩
    · exact .inr ⟨h1, by linarith⟩
  · rcases h with ⟨h0, h1, h2, -, -⟩ | ⟨h0, h1, h2, -, -⟩
    · exact .inl ⟨h2, by positivity⟩
    · exact .inr ⟨h2, by linarith⟩
  · rw [← mul_add, ← mul_add, inv_mul_cancel₀ hS]
  · rcases h with ⟨h0, h1, h2, h3, -⟩ | ⟨h0, h1, h2, h3, -⟩
    · exact .inl ⟨h3, by positivity⟩
    · exact .inr ⟨h3, by linarith⟩
  · rcases h with ⟨h0, h1, h2, -, h3⟩ | ⟨h0, h1, h2, -, h3⟩
    · exact .inl ⟨h3, by positivity⟩
    · exact .inr ⟨h3, by linarith⟩
  · rw [← mul_add, ← hs, inv_mul_cancel₀ hS]
  · rw [hc]
    exact h2

theorem inTet_iff {a b c d p : Pt K} (h : 0 < orient3d a b c d) :
    InTet a b c d p ↔ 0 < orient3d p b c d ∧ 0 < orient3d a p c d ∧ 0 < orient3d a b p d ∧ 0 < orient3d a b c p := by
  constructor
  · rintro ⟨ka, kb, kc, kd, h1, h2, h3, h4, hs, hp⟩
    have e1 : orient3d p b c d = ka * orient3d a b c d := by
      have : orient3d p b c d = orient3d d c b p := by
        simp only [orient3d, Pt.sub, Pt.dot, Pt.cross]; ring
      rw [this, orient_affine4 hs hp]
      simp only [orient3d, Pt.sub, Pt.dot, Pt.cross]; ring
    have e2 : orient3d a p c d = kb * orient3d a b c d := by
      have : orient3d a p c d = orient3d c d a p := by
        simp only [orient3d, Pt.sub, Pt.dot, Pt.cross]; ring
      rw [this, orient_affine4 hs hp]
      simp only [orient3d, Pt.sub, Pt.dot, Pt.cross]; ring
    have e3 : orient3d a b p d = kc * orient3d a b c d := by
      have : orient3d a b p d = orient3d b a d p := by
        simp only [orient3d, Pt.sub, Pt.dot, Pt.cross]; ring
      rw [this, orient_affine4 hs hp]
      simp only [orient3d, Pt.sub, Pt.dot, Pt.cross]; ring
    have e4 : orient3d a b c p = kd * orient3d a b c d := by
      rw [orient_affine4 hs hp]
      simp only [orient3d, Pt.sub, Pt.dot, Pt.cross]; ring
    rw [e1, e2, e3, e4]
    exact ⟨mul_pos h1 h, mul_pos h2 h, mul_pos h3 h, mul_pos h4 h⟩
  · rintro ⟨h1, h2, h3, h4⟩
    have hs := orient_split a b c d p
    have hc := orient_cramer a b c d p
    have := comb_smul (orient3d a b c d)⁻¹ [(orient3d p b c d, a), (orient3d a p c d, b), (orient3d a b p d, c),
      (orient3d a b c p, d)]
    refine ⟨_, _, _, _, mul_pos (inv_pos.2 h) h1, mul_pos (inv_pos.2 h) h2, mul_pos (inv_pos.2 h) h3,
      mul_pos (inv_pos.2 h) h4, ?_, this.trans ?_⟩
    · rw [← mul_add, ← mul_add, ← mul_add, hs, inv_mul_cancel₀ h.ne']
    · rw [hc]
      simp only [Pt.smul, ← mul_assoc, inv_mul_cancel₀ h.ne', one_mul]

theorem norm2_pos {n : Pt K} (h : n ≠ ⟨0, 0, 0⟩) : 0 < n.norm2 := by
  simp only [Pt.norm2, Pt.dot]
  rcases pt_ne.1 h with h | h | h
  · have := mul_self_pos.2 h; nlinarith [mul_self_nonneg n.y, mul_self_nonneg n.z]
  · have := mul_self_pos.2 h; nlinarith [mul_self_nonneg n.x, mul_self_nonneg n.z]
  · have := mul_self_pos.2 h; nlinarith [mul_self_nonneg n.x, mul_self_nonneg n.y]

/-! ### Two segments -/

section seg
variable (p0 p1 p2 p3 : Pt K)

/-- The four numbers of `edge_edge_bary` for solid vertices. -/
def eb0 := orient3d p2 p1 p3 (p2.add (crossEdges p0 p1 p2 p3))
def eb1 := orient3d p3 p0 p2 (p2.add (crossEdges p0 p1 p2 p3))
def eb2 := orient3d p1 p3 p0 (p2.add (crossEdges p0 p1 p2 p3))
def eb3 := orient3d p0 p2 p1 (p2.add (crossEdges p0 p1 p2 p3))

theorem eb_sum01 : eb0 p0 p1 p2 p3 + eb1 p0 p1 p2 p3 = -(crossEdges p0 p1 p2 p3).norm2 := by
  simp only [eb0, eb1, orient3d, Pt.sub, Pt.dot, Pt.cross, crossEdges, Pt.add, Pt.norm2]; ring

theorem eb_sum23 (h : orient3d p0 p1 p2 p3 = 0) :
    eb2 p0 p1 p2 p3 + eb3 p0 p1 p2 p3 = -(crossEdges p0 p1 p2 p3).norm2 := by
  have : eb2 p0 p1 p2 p3 + eb3 p0 p1 p2 p3 = -(crossEdges p0 p1 p2 p3).norm2 - orient3d p0 p1 p2 p3 := by
    simp only [eb2, eb3, orient3d, Pt.sub, Pt.dot, Pt.cross, crossEdges, Pt.add, Pt.norm2]; ring
  rw [this, h, sub_zero]

theorem eb_comb (h : orient3d p0 p1 p2 p3 = 0) :
    comb [(eb0 p0 p1 p2 p3, p0), (eb1 p0 p1 p2 p3, p1)] = comb [(eb2 p0 p1 p2 p3, p2), (eb3 p0 p1 p2 p3, p3)] := by
  simp only [eb0, eb1, eb2, eb3, orient3d, Pt.sub, Pt.dot, Pt.cross, crossEdges, comb, Pt.add, Pt.smul,
    Pt.mk.injEq] at h ⊢
  refine ⟨?_, ?_, ?_⟩
  · linear_combination (((p1.y - p0.y) * (p3.z - p2.z) - (p1.z - p0.z) * (p3.y - p2.y)) + p2.x) * h
  · linear_combination (((p1.z - p0.z) * (p3.x - p2.x) - (p1.x - p0.x) * (p3.z - p2.z)) + p2.y) * h
  · linear_combination (((p1.x - p0.x) * (p3.y - p2.y) - (p1.y - p0.y) * (p3.x - p2.x)) + p2.z) * h

end seg

/-- The four numbers are the crossing's coordinates times the square of the cross product. -/
theorem eb_of_crossing {p0 p1 p2 p3 x : Pt K} {k0 k1 k2 k3 : K} (hk : k0 + k1 = 1) (hl : k2 + k3 = 1)
    (h1 : comb [(k0, p0), (k1, p1)] = x) (h2 : comb [(k2, p2), (k3, p3)] = x) :
    orient3d p0 p1 p2 p3 = 0 ∧ eb0 p0 p1 p2 p3 = -(k0 * (crossEdges p0 p1 p2 p3).norm2) ∧
      eb1 p0 p1 p2 p3 = -(k1 * (crossEdges p0 p1 p2 p3).norm2) ∧
      eb2 p0 p1 p2 p3 = -(k2 * (crossEdges p0 p1 p2 p3).norm2) ∧
      eb3 p0 p1 p2 p3 = -(k3 * (crossEdges p0 p1 p2 p3).norm2) := by
  obtain rfl : k0 = 1 - k1 := by linear_combination hk
  obtain rfl : k2 = 1 - k3 := by linear_combination hl
  obtain ⟨u, rfl⟩ : ∃ u, p1 = p0.add u := ⟨p1.sub p0, by ext <;> simp [Pt.add, Pt.sub]⟩
  obtain ⟨w, rfl⟩ : ∃ w, p3 = p2.add w := ⟨p3.sub p2, by ext <;> simp [Pt.add, Pt.sub]⟩
  obtain rfl : p0 = (p2.add (Pt.smul k3 w)).sub (Pt.smul k1 u) := by
    rw [← h1] at h2
    simp only [comb, Pt.add, Pt.smul, Pt.mk.injEq] at h2
    ext <;> simp only [Pt.add, Pt.sub, Pt.smul]
    · linear_combination -h2.1
    · linear_combination -h2.2.1
    · linear_combination -h2.2.2
  refine ⟨?_, ?_, ?_, ?_, ?_⟩ <;>
    simp only [eb0, eb1, eb2, eb3, orient3d, Pt.sub, Pt.dot, Pt.cross, crossEdges, Pt.add, Pt.norm2, Pt.smul] <;> ring

theorem segments_iff {p0 p1 p2 p3 : Pt K} (hc : crossEdges p0 p1 p2 p3 ≠ ⟨0, 0, 0⟩) :
    (∃ x, InSeg p0 p1 x ∧ InSeg p2 p3 x) ↔ orient3d p0 p1 p2 p3 = 0 ∧
      ((0 < eb0 p0 p1 p2 p3 ∧ 0 < eb1 p0 p1 p2 p3 ∧ 0 < eb2 p0 p1 p2 p3 ∧ 0 < eb3 p0 p1 p2 p3) ∨
       (eb0 p0 p1 p2 p3 < 0 ∧ eb1 p0 p1 p2 p3 < 0 ∧ eb2 p0 p1 p2 p3 < 0 ∧ eb3 p0 p1 p2 p3 < 0)) := by
  have hpos := norm2_pos hc
  constructor
  · rintro ⟨x, ⟨k0, k1, hk0, hk1, hk, h1⟩, k2, k3, hk2, hk3, hl, h2⟩
    obtain ⟨e, e0, e1, e2, e3⟩ := eb_of_crossing hk hl h1 h2
    refine ⟨e, .inr ?_⟩
    rw [e0, e1, e2, e3]
    simp only [neg_lt_zero]
    exact ⟨mul_pos hk0 hpos, mul_pos hk1 hpos, mul_pos hk2 hpos, mul_pos hk3 hpos⟩
  · rintro ⟨h, hs⟩
    have s1 := eb_sum01 p0 p1 p2 p3
    have s2 := eb_sum23 p0 p1 p2 p3 h
    have hb := eb_comb p0 p1 p2 p3 h
    rcases hs with ⟨h0, h1, h2, h3⟩ | ⟨h0, h1, h2, h3⟩
    · linarith
    · generalize eb0 p0 p1 p2 p3 = b0 at *
      generalize eb1 p0 p1 p2 p3 = b1 at *
      generalize eb2 p0 p1 p2 p3 = b2 at *
      generalize eb3 p0 p1 p2 p3 = b3 at *
      generalize (crossEdges p0 p1 p2 p3).norm2 = n at *
      have hn : (-n)⁻¹ < 0 := inv_lt_zero.2 (by linarith)
      have c1 := comb_smul (-n)⁻¹ [(b0, p0), (b1, p1)]
      have c2 := comb_smul (-n)⁻¹ [(b2, p2), (b3, p3)]
      refine ⟨_, ⟨_, _, mul_pos_of_neg_of_neg hn h0, mul_pos_of_neg_of_neg hn h1, ?_, c1⟩,
        _, _, mul_pos_of_neg_of_neg hn h2, mul_pos_of_neg_of_neg hn h3, ?_, ?_⟩
      · rw [← mul_add, s1, inv_mul_cancel₀ (by linarith)]
      · rw [← mul_add, s2, inv_mul_cancel₀ (by linarith)]
      · rw [hb]
        exact c2

/-! ### Spheres -/

theorem inSphere_eq {a b c d e o : Pt K} {r2 : K} (h : OnSphere o r2 [a, b, c, d]) :
    inSphere a b c d e = orient3d a b c d * (r2 - (e.sub o).norm2) := by
  have ha := h a (by simp)
  have hb := h b (by simp)
  have hc := h c (by simp)
  have hd := h d (by simp)
  simp only [Pt.norm2, Pt.dot, Pt.sub] at ha hb hc hd
  simp only [inSphere, orient3d, Pt.norm2, Pt.dot, Pt.sub, Pt.cross]
  linear_combination
    ((a.x - e.x) * ((b.y - e.y) * (c.z - e.z) - (b.z - e.z) * (c.y - e.y)) +
      (a.y - e.y) * ((b.z - e.z) * (c.x - e.x) - (b.x - e.x) * (c.z - e.z)) +
      (a.z - e.z) * ((b.x - e.x) * (c.y - e.y) - (b.y - e.y) * (c.x - e.x))) * hd -
    ((a.x - e.x) * ((b.y - e.y) * (d.z - e.z) - (b.z - e.z) * (d.y - e.y)) +
      (a.y - e.y) * ((b.z - e.z) * (d.x - e.x) - (b.x - e.x) * (d.z - e.z)) +
      (a.z - e.z) * ((b.x - e.x) * (d.y - e.y) - (b.y - e.y) * (d.x - e.x))) * hc +
    ((a.x - e.x) * ((c.y - e.y) * (d.z - e.z) - (c.z - e.z) * (d.y - e.y)) +
      (a.y - e.y) * ((c.z - e.z) * (d.x - e.x) - (c.x - e.x) * (d.z - e.z)) +
      (a.z - e.z) * ((c.x - e.x) * (d.y - e.y) - (c.y - e.y) * (d.x - e.x))) * hb -
    ((b.x - e.x) * ((c.y - e.y) * (d.z - e.z) - (c.z - e.z) * (d.y - e.y)) +
      (b.y - e.y) * ((c.z - e.z) * (d.x - e.x) - (c.x - e.x) * (d.z - e.z)) +
      (b.z - e.z) * ((c.x - e.x) * (d.y - e.y) - (c.y - e.y) * (d.x - e.x))) * ha

/-- The circumsphere exists. -/
theorem exists_sphere {a b c d : Pt K} (h : orient3d a b c d ≠ 0) : ∃ o r2, OnSphere o r2 [a, b, c, d] := by
  obtain ⟨u, rfl⟩ : ∃ u, a = d.add u := ⟨a.sub d, by ext <;> simp [Pt.add, Pt.sub]⟩
  obtain ⟨v, rfl⟩ : ∃ u, b = d.add u := ⟨b.sub d, by ext <;> simp [Pt.add, Pt.sub]⟩
  obtain ⟨w, rfl⟩ : ∃ u, c = d.add u := ⟨c.sub d, by ext <;> simp [Pt.add, Pt.sub]⟩
  have hD : orient3d (d.add u) (d.add v) (d.add w) d = u.dot (v.cross w) := by
    simp only [orient3d, Pt.sub, Pt.dot, Pt.cross, Pt.add]; ring
  rw [hD] at h
  -- a vector q with 2 q·u = |u|² etc.
  obtain ⟨q, q1, q2, q3⟩ : ∃ q : Pt K, 2 * q.dot u = u.norm2 ∧ 2 * q.dot v = v.norm2 ∧ 2 * q.dot w = w.norm2 := by
    refine ⟨Pt.smul (1 / (2 * u.dot (v.cross w)))
      (((Pt.smul u.norm2 (v.cross w)).add (Pt.smul v.norm2 (w.cross u))).add (Pt.smul w.norm2 (u.cross v))), ?_, ?_, ?_⟩
    all_goals
      have e : ∀ x y z : Pt K, (Pt.smul (1 / (2 * u.dot (v.cross w))) x).dot y = x.dot y / (2 * u.dot (v.cross w)) := by
        intro x y _; simp only [Pt.smul, Pt.dot]; ring
      rw [e _ _ u]
      field_simp
      simp only [Pt.norm2, Pt.smul, Pt.dot, Pt.cross, Pt.add]
      ring
  refine ⟨d.add q, q.norm2, ?_⟩
  simp only [OnSphere, List.mem_cons, List.not_mem_nil, or_false, forall_eq_or_imp, forall_eq]
  simp only [Pt.norm2, Pt.sub, Pt.dot, Pt.add] at *
  refine ⟨?_, ?_, ?_, ?_⟩
  · linear_combination -q1
  · linear_combination -q2
  · linear_combination -q3
  · ring

end ordered
end Tet
