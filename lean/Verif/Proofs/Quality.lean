import Verif.Proofs.Geo

/-!
# The quality of a tet is the smallest distance between opposite simplexes
-/

namespace Tet
open Spec

variable {K : Type} [Field K] [LinearOrder K] [IsStrictOrderedRing K]

omit [Field K] [IsStrictOrderedRing K] in
theorem foldl_max_ge (l : List K) (x : K) : x ≤ l.foldl max x ∧ ∀ y ∈ l, y ≤ l.foldl max x := by
  induction l generalizing x with
  | nil => simp
  | cons z l ih =>
    simp only [List.foldl_cons, List.mem_cons, forall_eq_or_imp]
    obtain ⟨h1, h2⟩ := ih (max x z)
    exact ⟨(le_max_left _ _).trans h1, (le_max_right _ _).trans h1, h2⟩

omit [Field K] [IsStrictOrderedRing K] in
theorem foldl_max_mem (l : List K) (x : K) : l.foldl max x = x ∨ l.foldl max x ∈ l := by
  induction l generalizing x with
  | nil => simp
  | cons z l ih =>
    simp only [List.foldl_cons, List.mem_cons]
    rcases ih (max x z) with h | h
    · rcases max_choice x z with h' | h'
      · exact .inl (h.trans h')
      · exact .inr (.inl (h.trans h'))
    · exact .inr (.inr h)

variable {norm : Pt K → K}

theorem vol_le (hN : IsNorm norm) {n p q : Pt K} {v : K} (h : v * v = n.dot (p.sub q) * n.dot (p.sub q)) (hv : 0 ≤ v) :
    v ≤ norm n * norm (p.sub q) := by
  rw [mul_self_le_mul_self_iff hv (mul_nonneg (hN.nonneg _) (hN.nonneg _)), h]
  have e : norm n * norm (p.sub q) * (norm n * norm (p.sub q)) = n.norm2 * (p.sub q).norm2 := by
    rw [← hN.sq, ← hN.sq]; ring
  rw [e]
  generalize p.sub q = u
  simp only [Pt.norm2, Pt.dot]
  nlinarith [mul_self_nonneg (n.x * u.y - n.y * u.x), mul_self_nonneg (n.y * u.z - n.z * u.y),
    mul_self_nonneg (n.z * u.x - n.x * u.z)]

theorem norm_pos (hN : IsNorm norm) {n : Pt K} (h : n ≠ ⟨0, 0, 0⟩) : 0 < norm n := by
  rcases (hN.nonneg n).lt_or_eq with h' | h'
  · exact h'
  · have h1 := hN.sq n
    rw [← h', mul_zero] at h1
    exact absurd h1.symm (norm2_pos h).ne'

theorem norm_foot (hN : IsNorm norm) {n p q : Pt K} {t v : K} (hn : n ≠ ⟨0, 0, 0⟩) (hv : 0 ≤ v)
    (h : p.sub q = Pt.smul t n) (ht : (t * n.norm2) * (t * n.norm2) = v * v) : norm (p.sub q) = v / norm n := by
  have hp := norm_pos hN hn
  rw [eq_div_iff hp.ne', ← mul_self_inj (mul_nonneg (hN.nonneg _) hp.le) hv, ← ht]
  have : norm (p.sub q) * norm n * (norm (p.sub q) * norm n) = (p.sub q).norm2 * n.norm2 := by
    rw [← hN.sq, ← hN.sq]; ring
  rw [this, h]
  simp only [Pt.norm2, Pt.dot, Pt.smul]
  ring

/-- The foot of the vertex `a` in the plane of `b`, `c`, `d`. -/
theorem foot_plane (hN : IsNorm norm) {a b c d n : Pt K} {s : K} (hs : s * s = 1) (h : 0 < orient3d a b c d)
    (hn : ∀ x, orient3d x b c d = s * n.dot (x.sub b)) :
    ∃ q, OnPlane b c d q ∧ norm (a.sub q) = orient3d a b c d / norm n := by
  have hn0 : n ≠ ⟨0, 0, 0⟩ := by
    rintro rfl
    rw [hn a] at h
    simp [Pt.dot] at h
  have h2 := norm2_pos hn0
  set t := n.dot (a.sub b) / n.norm2 with ht
  have htn : t * n.norm2 = n.dot (a.sub b) := div_mul_cancel₀ _ h2.ne'
  let q := a.sub (Pt.smul t n)
  have hq0 : orient3d q b c d = 0 := by
    rw [hn]
    have : n.dot (q.sub b) = n.dot (a.sub b) - t * n.norm2 := by
      simp only [q, Pt.norm2, Pt.dot, Pt.sub, Pt.smul]; ring
    rw [this, htn, sub_self, mul_zero]
  refine ⟨q, ?_, norm_foot hN hn0 h.le (t := t) ?_ ?_⟩
  · have e1 := orient_split a b c d q
    have e2 := orient_cramer a b c d q
    have e3 := comb_smul (orient3d a b c d)⁻¹ [(orient3d a q c d, b), (orient3d a b q d, c), (orient3d a b c q, d)]
    rw [hq0] at e1 e2
    refine ⟨_, _, _, ?_, e3.trans ?_⟩
    · rw [← mul_add, ← mul_add, ← e1, zero_add, inv_mul_cancel₀]
      rw [← zero_add (orient3d a q c d), e1]
      exact h.ne'
    · have e4 : comb [(orient3d a q c d, b), (orient3d a b q d, c), (orient3d a b c q, d)] =
          Pt.smul (orient3d a b c d) q := by
        rw [← e2]
        simp [comb, Pt.smul, Pt.add]
      rw [e4]
      simp only [Pt.smul, ← mul_assoc, inv_mul_cancel₀ h.ne', one_mul]
  · ext <;> simp [q, Pt.sub]
  · rw [htn, hn a]
    linear_combination (-(n.dot (a.sub b)) * (n.dot (a.sub b))) * hs

/-- The common perpendicular of the lines `a b` and `c d`. -/
theorem foot_lines (hN : IsNorm norm) {a b c d : Pt K} {v s : K} (hs : s * s = 1) (hv : 0 < v)
    (hn : v = s * ((b.sub a).cross (d.sub c)).dot (a.sub c)) :
    ∃ p q, OnLine a b p ∧ OnLine c d q ∧ norm (p.sub q) = v / norm ((b.sub a).cross (d.sub c)) := by
  obtain ⟨u, rfl⟩ : ∃ u, b = a.add u := ⟨b.sub a, by ext <;> simp [Pt.add, Pt.sub]⟩
  obtain ⟨w, rfl⟩ : ∃ u, d = c.add u := ⟨d.sub c, by ext <;> simp [Pt.add, Pt.sub]⟩
  obtain ⟨r, rfl⟩ : ∃ u, a = c.add u := ⟨a.sub c, by ext <;> simp [Pt.add, Pt.sub]⟩
  have e1 : ((c.add r).add u).sub (c.add r) = u := by ext <;> simp [Pt.add, Pt.sub]
  have e2 : (c.add w).sub c = w := by ext <;> simp [Pt.add, Pt.sub]
  have e3 : (c.add r).sub c = r := by ext <;> simp [Pt.add, Pt.sub]
  rw [e1, e2, e3] at hn
  rw [e1, e2]
  have hn0 : u.cross w ≠ ⟨0, 0, 0⟩ := by
    intro h0
    rw [hn, h0] at hv
    simp [Pt.dot] at hv
  have h2 := norm2_pos hn0
  have key : ∀ x : K, x = x * (u.cross w).norm2 / (u.cross w).norm2 := fun x => by field_simp
  refine ⟨(c.add r).add (Pt.smul (-((r.cross w).dot (u.cross w)) / (u.cross w).norm2) u),
    c.add (Pt.smul (-((r.cross u).dot (u.cross w)) / (u.cross w).norm2) w),
    ⟨1 + ((r.cross w).dot (u.cross w)) / (u.cross w).norm2, -((r.cross w).dot (u.cross w)) / (u.cross w).norm2, by ring, ?_⟩,
    ⟨1 + ((r.cross u).dot (u.cross w)) / (u.cross w).norm2, -((r.cross u).dot (u.cross w)) / (u.cross w).norm2, by ring, ?_⟩,
    norm_foot hN hn0 hv.le (t := (u.cross w).dot r / (u.cross w).norm2) ?_ ?_⟩
  · ext <;> simp only [comb, Pt.add, Pt.smul] <;> ring
  · ext <;> simp only [comb, Pt.add, Pt.smul] <;> ring
  · have e : ∀ x : K, x * (u.cross w).norm2⁻¹ * (u.cross w).norm2 = x := fun x => by field_simp
    ext
    all_goals
      simp only [Pt.sub, Pt.add, Pt.smul, div_eq_mul_inv]
      refine mul_right_cancel₀ h2.ne' ?_
      have h3 : (u.cross w).norm2⁻¹ * (u.cross w).norm2 = 1 := inv_mul_cancel₀ h2.ne'
      generalize hg : (u.cross w).norm2⁻¹ = g at h3
      simp only [Pt.norm2, Pt.dot, Pt.cross] at h3 ⊢
    · linear_combination (-(((r.y * w.z - r.z * w.y) * (u.y * w.z - u.z * w.y) + (r.z * w.x - r.x * w.z) * (u.z * w.x - u.x * w.z) + (r.x * w.y - r.y * w.x) * (u.x * w.y - u.y * w.x)) * u.x) + (((r.y * u.z - r.z * u.y) * (u.y * w.z - u.z * w.y) + (r.z * u.x - r.x * u.z) * (u.z * w.x - u.x * w.z) + (r.x * u.y - r.y * u.x) * (u.x * w.y - u.y * w.x)) * w.x) - (((u.y * w.z - u.z * w.y) * r.x + (u.z * w.x - u.x * w.z) * r.y + (u.x * w.y - u.y * w.x) * r.z) * (u.y * w.z - u.z * w.y))) * h3
    · linear_combination (-(((r.y * w.z - r.z * w.y) * (u.y * w.z - u.z * w.y) + (r.z * w.x - r.x * w.z) * (u.z * w.x - u.x * w.z) + (r.x * w.y - r.y * w.x) * (u.x * w.y - u.y * w.x)) * u.y) + (((r.y * u.z - r.z * u.y) * (u.y * w.z - u.z * w.y) + (r.z * u.x - r.x * u.z) * (u.z * w.x - u.x * w.z) + (r.x * u.y - r.y * u.x) * (u.x * w.y - u.y * w.x)) * w.y) - (((u.y * w.z - u.z * w.y) * r.x + (u.z * w.x - u.x * w.z) * r.y + (u.x * w.y - u.y * w.x) * r.z) * (u.z * w.x - u.x * w.z))) * h3
    · linear_combination (-(((r.y * w.z - r.z * w.y) * (u.y * w.z - u.z * w.y) + (r.z * w.x - r.x * w.z) * (u.z * w.x - u.x * w.z) + (r.x * w.y - r.y * w.x) * (u.x * w.y - u.y * w.x)) * u.z) + (((r.y * u.z - r.z * u.y) * (u.y * w.z - u.z * w.y) + (r.z * u.x - r.x * u.z) * (u.z * w.x - u.x * w.z) + (r.x * u.y - r.y * u.x) * (u.x * w.y - u.y * w.x)) * w.z) - (((u.y * w.z - u.z * w.y) * r.x + (u.z * w.x - u.x * w.z) * r.y + (u.x * w.y - u.y * w.x) * r.z) * (u.x * w.y - u.y * w.x))) * h3
  · rw [div_mul_cancel₀ _ h2.ne', hn]
    linear_combination (-((u.cross w).dot r) * ((u.cross w).dot r)) * hs

/-- The seven vectors, each with its pairs of points. -/
theorem opposite_cross {a b c d p q : Pt K} (h : OnOpposite a b c d p q) :
    ∃ n ∈ Mesh.qualityCross a b c d, orient3d a b c d * orient3d a b c d = n.dot (p.sub q) * n.dot (p.sub q) := by
  have sq : ∀ (n : Pt K) (s : K), s * s = 1 → orient3d a b c d = s * n.dot (p.sub q) →
      orient3d a b c d * orient3d a b c d = n.dot (p.sub q) * n.dot (p.sub q) := by
    intro n s hs h
    rw [h]
    linear_combination (n.dot (p.sub q) * n.dot (p.sub q)) * hs
  rcases h with ⟨rfl, k1, k2, k3, hk, rfl⟩ | ⟨rfl, k1, k2, k3, hk, rfl⟩ | ⟨rfl, k1, k2, k3, hk, rfl⟩ |
    ⟨rfl, k1, k2, k3, hk, rfl⟩ | ⟨⟨k1, k2, hk, rfl⟩, k3, k4, hk', rfl⟩ | ⟨⟨k1, k2, hk, rfl⟩, k3, k4, hk', rfl⟩ |
    ⟨⟨k1, k2, hk, rfl⟩, k3, k4, hk', rfl⟩
  · obtain rfl : k1 = 1 - k2 - k3 := by linear_combination hk
    refine ⟨((c.sub d).cross (b.sub d)), by simp [Mesh.qualityCross], ?_⟩
    first
    | (refine sq _ 1 (by ring) ?_
       simp only [orient3d, Pt.sub, Pt.dot, Pt.cross, comb, Pt.add, Pt.smul]
       ring1)
    | (refine sq _ (-1) (by ring) ?_
       simp only [orient3d, Pt.sub, Pt.dot, Pt.cross, comb, Pt.add, Pt.smul]
       ring1)
  · obtain rfl : k1 = 1 - k2 - k3 := by linear_combination hk
    refine ⟨((d.sub c).cross (a.sub c)), by simp [Mesh.qualityCross], ?_⟩
    first
    | (refine sq _ 1 (by ring) ?_
       simp only [orient3d, Pt.sub, Pt.dot, Pt.cross, comb, Pt.add, Pt.smul]
       ring1)
    | (refine sq _ (-1) (by ring) ?_
       simp only [orient3d, Pt.sub, Pt.dot, Pt.cross, comb, Pt.add, Pt.smul]
       ring1)
  · obtain rfl : k1 = 1 - k2 - k3 := by linear_combination hk
    refine ⟨((a.sub b).cross (d.sub b)), by simp [Mesh.qualityCross], ?_⟩
    first
    | (refine sq _ 1 (by ring) ?_
       simp only [orient3d, Pt.sub, Pt.dot, Pt.cross, comb, Pt.add, Pt.smul]
       ring1)
    | (refine sq _ (-1) (by ring) ?_
       simp only [orient3d, Pt.sub, Pt.dot, Pt.cross, comb, Pt.add, Pt.smul]
       ring1)
  · obtain rfl : k1 = 1 - k2 - k3 := by linear_combination hk
    refine ⟨((b.sub a).cross (c.sub a)), by simp [Mesh.qualityCross], ?_⟩
    first
    | (refine sq _ 1 (by ring) ?_
       simp only [orient3d, Pt.sub, Pt.dot, Pt.cross, comb, Pt.add, Pt.smul]
       ring1)
    | (refine sq _ (-1) (by ring) ?_
       simp only [orient3d, Pt.sub, Pt.dot, Pt.cross, comb, Pt.add, Pt.smul]
       ring1)
  · obtain rfl : k1 = 1 - k2 := by linear_combination hk
    obtain rfl : k3 = 1 - k4 := by linear_combination hk'
    refine ⟨((b.sub a).cross (d.sub c)), by simp [Mesh.qualityCross], ?_⟩
    first
    | (refine sq _ 1 (by ring) ?_
       simp only [orient3d, Pt.sub, Pt.dot, Pt.cross, comb, Pt.add, Pt.smul]
       ring1)
    | (refine sq _ (-1) (by ring) ?_
       simp only [orient3d, Pt.sub, Pt.dot, Pt.cross, comb, Pt.add, Pt.smul]
       ring1)
  · obtain rfl : k1 = 1 - k2 := by linear_combination hk
    obtain rfl : k3 = 1 - k4 := by linear_combination hk'
    refine ⟨((c.sub a).cross (d.sub b)), by simp [Mesh.qualityCross], ?_⟩
    first
    | (refine sq _ 1 (by ring) ?_
       simp only [orient3d, Pt.sub, Pt.dot, Pt.cross, comb, Pt.add, Pt.smul]
       ring1)
    | (refine sq _ (-1) (by ring) ?_
       simp only [orient3d, Pt.sub, Pt.dot, Pt.cross, comb, Pt.add, Pt.smul]
       ring1)
  · obtain rfl : k1 = 1 - k2 := by linear_combination hk
    obtain rfl : k3 = 1 - k4 := by linear_combination hk'
    refine ⟨((d.sub a).cross (c.sub b)), by simp [Mesh.qualityCross], ?_⟩
    first
    | (refine sq _ 1 (by ring) ?_
       simp only [orient3d, Pt.sub, Pt.dot, Pt.cross, comb, Pt.add, Pt.smul]
       ring1)
    | (refine sq _ (-1) (by ring) ?_
       simp only [orient3d, Pt.sub, Pt.dot, Pt.cross, comb, Pt.add, Pt.smul]
       ring1)

/-- For each of the seven vectors there is a pair of points realising the quotient. -/
theorem cross_attained (hN : IsNorm norm) {a b c d : Pt K} (h : 0 < orient3d a b c d) {n : Pt K}
    (hn : n ∈ Mesh.qualityCross a b c d) :
    n ≠ ⟨0, 0, 0⟩ ∧ ∃ p q, OnOpposite a b c d p q ∧ norm (p.sub q) = orient3d a b c d / norm n := by
  have ev : ∀ x y z w : Pt K, orient3d y x w z = orient3d x y z w := by
    intro x y z w; rw [orient_swap01, orient_swap23, neg_neg]
  have ne0 : ∀ (n : Pt K) (v s : K), 0 < v → (∃ x : Pt K, v = s * n.dot x) → n ≠ ⟨0, 0, 0⟩ := by
    rintro n v s hv ⟨x, hx⟩ rfl
    rw [hx] at hv
    simp [Pt.dot] at hv
  simp only [Mesh.qualityCross, List.map_cons, List.map_nil, List.mem_cons, List.not_mem_nil, or_false] at hn
  rcases hn with rfl | rfl | rfl | rfl | rfl | rfl | rfl
  · have e : orient3d d c b a = orient3d a b c d := by
      simp only [orient3d, Pt.sub, Pt.dot, Pt.cross]; ring
    have hx : ∀ x, orient3d x c b a = -1 * ((b.sub a).cross (c.sub a)).dot (x.sub c) := by
      intro x; simp only [orient3d, Pt.sub, Pt.dot, Pt.cross]; ring
    obtain ⟨q, ⟨k1, k2, k3, hk, hq⟩, h2⟩ := foot_plane (a := d) hN (s := -1) (by ring) (e ▸ h) hx
    refine ⟨ne0 _ _ (-1) h ⟨_, by rw [← e, hx]⟩, d, q, .inr (.inr (.inr (.inl ⟨rfl, k3, k2, k1, by linear_combination hk, ?_⟩))), e ▸ h2⟩
    rw [← hq]; ext <;> simp only [comb, Pt.add, Pt.smul] <;> ring
  · have hx : ∀ x, orient3d x b c d = -1 * ((c.sub d).cross (b.sub d)).dot (x.sub b) := by
      intro x; simp only [orient3d, Pt.sub, Pt.dot, Pt.cross]; ring
    obtain ⟨q, hq, h2⟩ := foot_plane (a := a) hN (s := -1) (by ring) h hx
    exact ⟨ne0 _ _ (-1) h ⟨_, by rw [hx]⟩, a, q, .inl ⟨rfl, hq⟩, h2⟩
  · have e : orient3d b a d c = orient3d a b c d := ev _ _ _ _
    have hx : ∀ x, orient3d x a d c = -1 * ((d.sub c).cross (a.sub c)).dot (x.sub a) := by
      intro x; simp only [orient3d, Pt.sub, Pt.dot, Pt.cross]; ring
    obtain ⟨q, ⟨k1, k2, k3, hk, hq⟩, h2⟩ := foot_plane (a := b) hN (s := -1) (by ring) (e ▸ h) hx
    refine ⟨ne0 _ _ (-1) h ⟨_, by rw [← e, hx]⟩, b, q, .inr (.inl ⟨rfl, k1, k3, k2, by linear_combination hk, ?_⟩), e ▸ h2⟩
    rw [← hq]; ext <;> simp only [comb, Pt.add, Pt.smul] <;> ring
  · have e : orient3d c d a b = orient3d a b c d := by
      simp only [orient3d, Pt.sub, Pt.dot, Pt.cross]; ring
    have hx : ∀ x, orient3d x d a b = -1 * ((a.sub b).cross (d.sub b)).dot (x.sub d) := by
      intro x; simp only [orient3d, Pt.sub, Pt.dot, Pt.cross]; ring
    obtain ⟨q, ⟨k1, k2, k3, hk, hq⟩, h2⟩ := foot_plane (a := c) hN (s := -1) (by ring) (e ▸ h) hx
    refine ⟨ne0 _ _ (-1) h ⟨_, by rw [← e, hx]⟩, c, q, .inr (.inr (.inl ⟨rfl, k2, k3, k1, by linear_combination hk, ?_⟩)), e ▸ h2⟩
    rw [← hq]; ext <;> simp only [comb, Pt.add, Pt.smul] <;> ring
  · have hx : orient3d a b c d = -1 * ((b.sub a).cross (d.sub c)).dot (a.sub c) := by
      simp only [orient3d, Pt.sub, Pt.dot, Pt.cross]; ring
    obtain ⟨p, q, h1, h2, h3⟩ := foot_lines hN (s := -1) (by ring) h hx
    exact ⟨ne0 _ _ (-1) h ⟨_, hx⟩, p, q, .inr (.inr (.inr (.inr (.inl ⟨h1, h2⟩)))), h3⟩
  · have hx : orient3d a b c d = 1 * ((c.sub a).cross (d.sub b)).dot (a.sub b) := by
      simp only [orient3d, Pt.sub, Pt.dot, Pt.cross]; ring
    obtain ⟨p, q, h1, h2, h3⟩ := foot_lines hN (s := 1) (by ring) h hx
    exact ⟨ne0 _ _ 1 h ⟨_, hx⟩, p, q, .inr (.inr (.inr (.inr (.inr (.inl ⟨h1, h2⟩))))), h3⟩
  · have hx : orient3d a b c d = -1 * ((d.sub a).cross (c.sub b)).dot (a.sub b) := by
      simp only [orient3d, Pt.sub, Pt.dot, Pt.cross]; ring
    obtain ⟨p, q, h1, h2, h3⟩ := foot_lines hN (s := -1) (by ring) h hx
    exact ⟨ne0 _ _ (-1) h ⟨_, hx⟩, p, q, .inr (.inr (.inr (.inr (.inr (.inr ⟨h1, h2⟩))))), h3⟩

/-- The quality of a positively oriented tet is positive and is the smallest distance between
points on opposite simplexes. -/
theorem quality_pts (hN : IsNorm norm) {a b c d : Pt K} (h : 0 < orient3d a b c d) :
    0 < Mesh.qualityPts norm a b c d ∧
    (∃ p q, OnOpposite a b c d p q ∧ norm (p.sub q) = Mesh.qualityPts norm a b c d) ∧
    ∀ p q, OnOpposite a b c d p q → Mesh.qualityPts norm a b c d ≤ norm (p.sub q) := by
  have e : Mesh.qualityPts norm a b c d = orient3d a b c d /
      ((Mesh.qualityCross a b c d).map norm).foldl max (norm ((b.sub a).cross (c.sub a))) := by
    rw [Mesh.qualityPts]
    simp only [not_le.2 h, if_false]
  obtain ⟨-, hge⟩ := foldl_max_ge ((Mesh.qualityCross a b c d).map norm) (norm ((b.sub a).cross (c.sub a)))
  obtain ⟨n, hn, hM⟩ : ∃ n ∈ Mesh.qualityCross a b c d,
      ((Mesh.qualityCross a b c d).map norm).foldl max (norm ((b.sub a).cross (c.sub a))) = norm n := by
    rcases foldl_max_mem ((Mesh.qualityCross a b c d).map norm) (norm ((b.sub a).cross (c.sub a))) with h' | h'
    · exact ⟨_, by simp [Mesh.qualityCross], h'⟩
    · obtain ⟨n, hn, hn'⟩ := List.mem_map.1 h'
      exact ⟨n, hn, hn'.symm⟩
  rw [hM] at e hge
  obtain ⟨hn0, p, q, hpq, hd⟩ := cross_attained hN h hn
  have hpos := norm_pos hN hn0
  refine ⟨e ▸ div_pos h hpos, ⟨p, q, hpq, by rw [hd, e]⟩, ?_⟩
  intro p q hpq
  obtain ⟨n', hn', hsq⟩ := opposite_cross hpq
  rw [e, div_le_iff₀ hpos]
  have h1 := vol_le hN hsq h.le
  have h2 : norm n' ≤ norm n := hge _ (List.mem_map.2 ⟨n', hn', rfl⟩)
  calc orient3d a b c d ≤ norm n' * norm (p.sub q) := h1
    _ ≤ norm n * norm (p.sub q) := mul_le_mul_of_nonneg_right h2 (hN.nonneg _)
    _ = _ := mul_comm _ _

end Tet
