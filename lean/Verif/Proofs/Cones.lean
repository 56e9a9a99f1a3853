import Verif.Proofs.Vec4
import Verif.Proofs.FlipStates

/-!
# The tets of a mesh as cones
-/

namespace Tet
namespace Vec4
variable {K : Type} [Field K] [LinearOrder K] [IsStrictOrderedRing K]

/-- Going a little in the direction of `z` makes all functions positive that are positive before or grow. -/
theorem small (G : List (Vec4 K →ₗ[K] K)) (y z : Vec4 K) (h : ∀ g ∈ G, 0 < g y ∨ g y = 0 ∧ 0 < g z) :
    ∃ e : K, 0 < e ∧ ∀ t, 0 < t → t ≤ e → ∀ g ∈ G, 0 < g (y + t • z) := by
  induction G with
  | nil => exact ⟨1, one_pos, by simp⟩
  | cons g G ih =>
    obtain ⟨e, h1, h2⟩ := ih fun g hg => h g (by simp [hg])
    obtain ⟨e', h3, h4⟩ : ∃ e : K, 0 < e ∧ ∀ t, 0 < t → t ≤ e → 0 < g (y + t • z) := by
      rcases h g (by simp) with hg | ⟨hg, hz⟩
      · by_cases hz : 0 ≤ g z
        · exact ⟨1, one_pos, fun t ht _ => by
            rw [map_add, map_smul, smul_eq_mul]
            have := mul_nonneg ht.le hz
            linarith⟩
        · push Not at hz
          refine ⟨g y / (-(2 * g z)), div_pos hg (by linarith), fun t ht hte => ?_⟩
          rw [le_div_iff₀ (by linarith)] at hte
          rw [map_add, map_smul, smul_eq_mul]
          linarith
      · exact ⟨1, one_pos, fun t ht _ => by
          rw [map_add, map_smul, smul_eq_mul, hg, zero_add]
          exact mul_pos ht hz⟩
    refine ⟨min e e', lt_min h1 h3, fun t ht hte g' hg' => ?_⟩
    rcases List.mem_cons.1 hg' with rfl | hg'
    · exact h4 t ht (le_trans hte (min_le_right _ _))
    · exact h2 t ht (le_trans hte (min_le_left _ _)) g' hg'

/-- Close to a vector there are vectors in none of finitely many planes. -/
theorem near : ∀ (F G : List (Vec4 K →ₗ[K] K)) (x : Vec4 K), (∀ f ∈ F, f ≠ 0) → (∀ g ∈ G, 0 < g x) →
    ∃ y, (∀ f ∈ F, f y ≠ 0) ∧ ∀ g ∈ G, 0 < g y
  | [], G, x, _, hG => ⟨x, by simp, hG⟩
  | f :: F, G, x, hF, hG => by
    obtain ⟨x1, h1, h2⟩ : ∃ x1, f x1 ≠ 0 ∧ ∀ g ∈ G, 0 < g x1 := by
      by_cases h0 : f x = 0
      · obtain ⟨u, hu⟩ : ∃ u, f u ≠ 0 := by
          by_contra hn
          push Not at hn
          exact hF f (by simp) (LinearMap.ext hn)
        obtain ⟨e, he, h⟩ := small G x u fun g hg => .inl (hG g hg)
        refine ⟨x + e • u, ?_, h e he le_rfl⟩
        rw [map_add, map_smul, smul_eq_mul, h0, zero_add]
        exact mul_ne_zero he.ne' hu
      · exact ⟨x, h0, hG⟩
    obtain ⟨y, h3, h4⟩ := near F ((if 0 < f x1 then f else -f) :: G) x1 (fun f hf => hF f (by simp [hf])) (by
      intro g hg
      rcases List.mem_cons.1 hg with rfl | hg
      · split_ifs with h
        · exact h
        · rw [LinearMap.neg_apply, neg_pos]
          exact lt_of_le_of_ne (not_lt.1 h) h1
      · exact h2 g hg)
    refine ⟨y, fun f' hf' => ?_, fun g hg => h4 g (by simp [hg])⟩
    rcases List.mem_cons.1 hf' with rfl | hf'
    · have := h4 _ (List.mem_cons_self ..)
      intro h0
      split_ifs at this
      · linarith
      · rw [LinearMap.neg_apply] at this
        linarith
    · exact h3 f' hf'

/-- The same, starting in some direction from a vector where the functions are not yet positive. -/
theorem near_small (F G : List (Vec4 K →ₗ[K] K)) (y z : Vec4 K) (hF : ∀ f ∈ F, f ≠ 0)
    (hG : ∀ g ∈ G, 0 < g y ∨ g y = 0 ∧ 0 < g z) : ∃ x, (∀ f ∈ F, f x ≠ 0) ∧ ∀ g ∈ G, 0 < g x := by
  obtain ⟨e, he, h⟩ := small G y z hG
  exact near F G _ hF (h e he le_rfl)

/-- The 2-to-3 flip. -/
theorem cones23 {a b c d e x : Vec4 K} (hg : Free5 a b c d e x) (h1 : 0 < det a b c d) (h2 : 0 < det b a c e)
    (n1 : 0 < det b a d e) (n2 : 0 < det a c d e) (n3 : 0 < det c b d e) :
    (InCone a b c d x ∨ InCone b a c e x) ↔ (InCone b a d e x ∨ InCone a c d e x ∨ InCone c b d e x) := by
  have e1 : det a b d e < 0 := by rw [swap0]; linarith
  have e2 : det c a d e < 0 := by rw [swap0]; linarith
  have e3 : det b c d e < 0 := by rw [swap0]; linarith
  have := cones hg (.inr (.inr (.inr (.inl h2)))) (.inl e3)
  simp only [h1, h2, e1, e2, e3, h1.not_gt, h2.not_gt, e1.not_gt, e2.not_gt, e3.not_gt, true_and, false_and, false_or,
    or_false] at this
  tauto

theorem pairs {A B o1 o2 o3 o4 n1 n2 n3 n4 : Prop} (h : A → B → False) (h1 : A ∨ o2 ∨ o1 ↔ n4 ∨ n1 ∨ B)
    (h2 : B ∨ o4 ∨ o3 ↔ n3 ∨ n2 ∨ A) : (o1 ∨ o2 ∨ o3 ∨ o4) ↔ (n1 ∨ n2 ∨ n3 ∨ n4) := by
  by_cases hA : A <;> by_cases hB : B
  · exact absurd hB (h hA)
  · have i1 := h1.1 (.inl hA)
    have i2 := h2.2 (.inr (.inr hA))
    simp only [hB, or_false, false_or] at i1 i2
    exact ⟨fun _ => by rcases i1 with h | h <;> simp [h], fun _ => by rcases i2 with h | h <;> simp [h]⟩
  · have i1 := h1.2 (.inr (.inr hB))
    have i2 := h2.1 (.inl hB)
    simp only [hA, or_false, false_or] at i1 i2
    exact ⟨fun _ => by rcases i2 with h | h <;> simp [h], fun _ => by rcases i1 with h | h <;> simp [h]⟩
  · simp only [hA, hB, or_false, false_or] at h1 h2
    constructor
    · rintro (h | h | h | h)
      · rcases h1.1 (.inr h) with h | h <;> simp [h]
      · rcases h1.1 (.inl h) with h | h <;> simp [h]
      · rcases h2.1 (.inr h) with h | h <;> simp [h]
      · rcases h2.1 (.inl h) with h | h <;> simp [h]
    · rintro (h | h | h | h)
      · rcases h1.2 (.inr h) with h | h <;> simp [h]
      · rcases h2.2 (.inr h) with h | h <;> simp [h]
      · rcases h2.2 (.inl h) with h | h <;> simp [h]
      · rcases h1.2 (.inl h) with h | h <;> simp [h]

omit [IsStrictOrderedRing K] in
theorem inCone_flip {a b c d x : Vec4 K} : InCone a b c d x ↔ InCone b a d c x := by
  unfold InCone
  rw [show det b a d x = det a d b x by simp only [det, det3]; ring, show det b c a x = det a b c x by simp only [det, det3]; ring]
  constructor
  · rintro ⟨h1, h2, h3, h4⟩
    exact ⟨h2, h1, h4, h3⟩
  · rintro ⟨h1, h2, h3, h4⟩
    exact ⟨h2, h1, h4, h3⟩

/-- Two 2-to-3 flips with a common tet, which may be flat or upside down. -/
theorem cones44 {x y p q r s v : Vec4 K} (g1 : Free5 y x q p r v) (g2 : Free5 y x s r p v) (h1 : 0 < det y x q p)
    (h2 : 0 < det x y q r) (h3 : 0 < det y x s r) (h4 : 0 < det x y s p) (n1 : 0 < det y q p r) (n2 : 0 < det y s r p)
    (n3 : 0 < det s x r p) (n4 : 0 < det q x p r) :
    (InCone y x q p v ∨ InCone x y q r v ∨ InCone y x s r v ∨ InCone x y s p v) ↔
      (InCone y q p r v ∨ InCone y s r p v ∨ InCone s x r p v ∨ InCone q x p r v) := by
  have e1 : det q y p r < 0 := by rw [swap0]; linarith
  have e2 : det x q p r < 0 := by rw [swap0]; linarith
  have e3 : det s y r p < 0 := by rw [swap0]; linarith
  have e4 : det x s r p < 0 := by rw [swap0]; linarith
  have k1 := cones g1 (.inr (.inr (.inr (.inl h2)))) (.inl e2)
  have k2 := cones g2 (.inr (.inr (.inr (.inl h4)))) (.inl e4)
  have t1 : det y x r p = -det y x p r := swap2 ..
  have t2 : InCone y x p r v ↔ InCone x y r p v := inCone_flip
  have t3 : InCone x y p r v ↔ InCone y x r p v := inCone_flip
  rw [t1] at k2
  simp only [h1, h2, h3, h4, e1, e2, e3, e4, h1.not_gt, h2.not_gt, h3.not_gt, h4.not_gt, e1.not_gt, e2.not_gt, e3.not_gt,
    e4.not_gt, true_and, false_and, false_or, or_false, neg_pos, neg_lt_zero, ← t2, ← t3] at k1 k2
  exact pairs (fun h h' => lt_asymm h.1 h'.1) k1 k2

/-- Going around an edge. -/
theorem sector {a b q1 q2 q3 q4 x : Vec4 K} (h1 : 0 < det a b q1 q2) (h2 : 0 < det a b q2 q3) (h3 : 0 < det a b q3 q4)
    (h4 : 0 < det a b q4 q1) (g1 : det a b q1 x ≠ 0) (g2 : det a b q2 x ≠ 0) (g3 : det a b q3 x ≠ 0) (g4 : det a b q4 x ≠ 0) :
    (0 < det a b q1 x ∧ det a b q2 x < 0) ∨ (0 < det a b q2 x ∧ det a b q3 x < 0) ∨ (0 < det a b q3 x ∧ det a b q4 x < 0) ∨
      0 < det a b q4 x ∧ det a b q1 x < 0 := by
  have r1 : det a b q1 q2 * det a b q3 x + det a b q2 q3 * det a b q1 x = det a b q1 q3 * det a b q2 x := by
    simp only [det, det3]; ring
  have r2 : det a b q3 q4 * det a b q1 x + det a b q4 q1 * det a b q3 x = -det a b q1 q3 * det a b q4 x := by
    simp only [det, det3]; ring
  by_contra hn
  push Not at hn
  obtain ⟨n1, n2, n3, n4⟩ := hn
  rcases lt_or_gt_of_ne g1 with k1 | k1
  · have k4 : det a b q4 x < 0 := lt_of_le_of_ne (not_lt.1 fun h => absurd (n4 h) (not_le.2 k1)) g4
    have k3 : det a b q3 x < 0 := lt_of_le_of_ne (not_lt.1 fun h => absurd (n3 h) (not_le.2 k4)) g3
    have k2 : det a b q2 x < 0 := lt_of_le_of_ne (not_lt.1 fun h => absurd (n2 h) (not_le.2 k3)) g2
    have m1 := mul_neg_of_pos_of_neg h1 k3
    have m2 := mul_neg_of_pos_of_neg h2 k1
    have m3 := mul_neg_of_pos_of_neg h3 k1
    have m4 := mul_neg_of_pos_of_neg h4 k3
    rcases le_total (det a b q1 q3) 0 with h | h
    · have := mul_nonneg_of_nonpos_of_nonpos h k2.le
      linarith
    · have := mul_nonneg_of_nonpos_of_nonpos (neg_nonpos.2 h) k4.le
      linarith
  · have k2 : 0 < det a b q2 x := lt_of_le_of_ne (n1 k1) (Ne.symm g2)
    have k3 : 0 < det a b q3 x := lt_of_le_of_ne (n2 k2) (Ne.symm g3)
    have k4 : 0 < det a b q4 x := lt_of_le_of_ne (n3 k3) (Ne.symm g4)
    have m1 := mul_pos h1 k3
    have m2 := mul_pos h2 k1
    have m3 := mul_pos h3 k1
    have m4 := mul_pos h4 k3
    rcases le_total (det a b q1 q3) 0 with h | h
    · have := mul_nonpos_of_nonpos_of_nonneg h k2.le
      linarith
    · have := mul_nonpos_of_nonpos_of_nonneg (neg_nonpos.2 h) k4.le
      linarith

end Vec4
end Tet
