import Verif.Proofs.FanClash

/-!
# Positive tets that are glued together along all triangles cover everything equally often
-/

namespace Tet
open Spec Vec4
variable {K : Type} [Field K] [LinearOrder K] [IsStrictOrderedRing K]
variable {h : VId → Vec4 K}

/-- Tets that are glued together along all their triangles. -/
structure Glued (ids : Finset Nat) (Q : Nat → V4) : Prop where
  adj : ∀ k ∈ ids, ∀ a b c d, SameTet (Q k) (a, b, c, d) → ∃ k' ∈ ids, ∃ z, SameTet (Q k') (b, a, c, z)
  uniq : ∀ k ∈ ids, ∀ k' ∈ ids, ∀ a b c d d', SameTet (Q k) (a, b, c, d) → SameTet (Q k') (a, b, c, d') → k = k'

variable {ids : Finset Nat} {Q : Nat → V4}

/-- All ways to write the tets. -/
def Shown (ids : Finset Nat) (Q : Nat → V4) (q : V4) : Prop := ∃ k ∈ ids, SameTet (Q k) q

open Classical in
/-- The tets that contain a vector. -/
noncomputable def holders (h : VId → Vec4 K) (ids : Finset Nat) (Q : Nat → V4) (x : Vec4 K) : Finset Nat :=
  ids.filter fun k => Cell h (Q k) x

/-- Between `x` and `x'` only the triangles are crossed whose planes contain `x0`. -/
structure Crossing (h : VId → Vec4 K) (S : V4 → Prop) (x x0 x' : Vec4 K) : Prop where
  before : Free h S x
  after : Free h S x'
  same : ∀ q, S q → F h q x0 ≠ 0 → (0 < F h q x ↔ 0 < F h q x0) ∧ (0 < F h q x' ↔ 0 < F h q x0)
  flip : ∀ q, S q → F h q x0 = 0 → (0 < F h q x ↔ F h q x' < 0)
  edge : ∀ a b c d, S (a, b, c, d) → F h (a, b, c, d) x0 = 0 → F h (a, d, b, c) x0 ≠ 0

theorem Crossing.symm {S : V4 → Prop} {x x0 x' : Vec4 K} (hc : Crossing h S x x0 x') : Crossing h S x' x0 x := by
  refine ⟨hc.after, hc.before, fun q hq h0 => (hc.same q hq h0).symm, fun q hq h0 => ?_, hc.edge⟩
  have h1 := hc.flip q hq h0
  have h2 := hc.before q hq
  have h3 := hc.after q hq
  constructor
  · intro h4
    exact lt_of_le_of_ne (not_lt.1 fun h5 => absurd (h1.1 h5) h4.not_gt) h2
  · intro h4
    exact lt_of_le_of_ne (not_lt.1 fun h5 => absurd (h1.2 h5) h4.not_gt) (Ne.symm h3)

/-- The other side of a triangle. -/
theorem F_swap (a b c d e : VId) (x : Vec4 K) : F h (b, a, c, e) x = -F h (a, b, c, d) x := swap0 ..

/-- The vector is inside the triangle. -/
def Vec4.InTri (a b c x : Vec4 K) : Prop := ∃ ka kb kc : K, 0 < ka ∧ 0 < kb ∧ 0 < kc ∧ x = ka • a + kb • b + kc • c

omit [IsStrictOrderedRing K] in
theorem Vec4.InTri.plane {a b c d : VId} {x : Vec4 K} (hx : InTri (h a) (h b) (h c) x) : F h (a, b, c, d) x = 0 := by
  obtain ⟨ka, kb, kc, -, -, -, rfl⟩ := hx
  simp only [F, fun3_apply, det_add, det_smul, self0, self1, self2, mul_zero, add_zero]

/-- A tet that is left is left through one of its triangles, into the next tet. -/
theorem Crossing.enters {x x0 x' : Vec4 K} (hc : Crossing h (Shown ids Q) x x0 x') (pos : ∀ k ∈ ids, 0 < D h (Q k))
    {k : Nat} (hk : k ∈ ids) (h1 : Cell h (Q k) x) (h2 : ¬ Cell h (Q k) x') :
    ∃ a b c d, SameTet (Q k) (a, b, c, d) ∧ InTri (h a) (h b) (h c) x0 ∧
      ∀ k' ∈ ids, ∀ z, SameTet (Q k') (b, a, c, z) → Cell h (Q k') x' := by
  rw [Cell_iff] at h2
  push Not at h2
  obtain ⟨⟨a, b, c, d⟩, hs, h3⟩ := h2
  have hS : Shown ids Q (a, b, c, d) := ⟨k, hk, hs⟩
  have h4 := Cell_iff.1 h1 _ hs
  have h5 : F h (a, b, c, d) x' < 0 := lt_of_le_of_ne h3 (hc.after _ hS)
  have h6 : F h (a, b, c, d) x0 = 0 := by
    by_contra h0
    obtain ⟨k1, k2⟩ := hc.same _ hS h0
    exact h5.not_gt (k2.2 (k1.1 h4))
  have t (q : V4) (hq : q ∈ twelve (a, b, c, d)) : SameTet (Q k) q := SameTet.trans' hs (mem_twelve.1 hq)
  have pD : 0 < D h (a, b, c, d) := by rw [D_same hs]; exact pos k hk
  have e : ∀ a' b' c', (a', b', c', d) ∈ twelve (a, b, c, d) → (a', d, b', c') ∈ twelve (a, b, c, d) →
      F h (a', b', c', d) x0 = 0 → 0 < F h (a', d, b', c') x0 := by
    intro a' b' c' i1 i2 i3
    have j1 := hc.edge a' b' c' d ⟨k, hk, t _ i1⟩ i3
    exact (hc.same _ ⟨k, hk, t _ i2⟩ j1).1.1 (Cell_iff.1 h1 _ (t _ i2))
  have z1 : F h (b, c, a, d) x0 = 0 := by
    rw [← h6]; simp only [F, fun3_apply, det, det3]; ring
  have z2 : F h (c, a, b, d) x0 = 0 := by
    rw [← h6]; simp only [F, fun3_apply, det, det3]; ring
  have p1 := e a b c (by simp [twelve]) (by simp [twelve]) h6
  have p2 := e b c a (by simp [twelve]) (by simp [twelve]) z1
  have p3 := e c a b (by simp [twelve]) (by simp [twelve]) z2
  have pD' : det (h a) (h b) (h c) (h d) ≠ 0 := pD.ne'
  obtain ⟨ka, kb, kc, kd, hx⟩ := basis pD' x0
  have c4 : F h (a, b, c, d) x0 = kd * D h (a, b, c, d) := by
    rw [hx]
    simp only [F, fun3_apply, det_add, det_smul, self0, self1, self2, D]
    ring
  have c1 : F h (a, d, b, c) x0 = kc * D h (a, b, c, d) := by
    rw [hx]
    simp only [F, fun3_apply, det_add, det_smul, self0, self1, self2, D]
    rw [show det (h a) (h d) (h b) (h c) = det (h a) (h b) (h c) (h d) by simp only [det, det3]; ring]
    ring
  have c2 : F h (b, d, c, a) x0 = ka * D h (a, b, c, d) := by
    rw [hx]
    simp only [F, fun3_apply, det_add, det_smul, self0, self1, self2, D]
    rw [show det (h b) (h d) (h c) (h a) = det (h a) (h b) (h c) (h d) by simp only [det, det3]; ring]
    ring
  have c3 : F h (c, d, a, b) x0 = kb * D h (a, b, c, d) := by
    rw [hx]
    simp only [F, fun3_apply, det_add, det_smul, self0, self1, self2, D]
    rw [show det (h c) (h d) (h a) (h b) = det (h a) (h b) (h c) (h d) by simp only [det, det3]; ring]
    ring
  have hkd : kd = 0 := by
    rw [h6] at c4
    rcases mul_eq_zero.1 c4.symm with h | h
    · exact h
    · exact absurd h pD.ne'
  rw [c1, mul_pos_iff_of_pos_right pD] at p1
  rw [c2, mul_pos_iff_of_pos_right pD] at p2
  rw [c3, mul_pos_iff_of_pos_right pD] at p3
  refine ⟨a, b, c, d, hs, ⟨ka, kb, kc, p2, p3, p1, by rw [hx, hkd]; module⟩, fun k' hk' z hz => ?_⟩
  have pD2 : 0 < D h (b, a, c, z) := by rw [D_same hz]; exact pos k' hk'
  obtain ⟨-, f1, f2, f3⟩ := tri_faces pD2 p3 p2 p1 (y := x0) (by rw [hx, hkd]; module)
  rw [← Cell_same hz]
  have t' (q : V4) (hq : q ∈ twelve (b, a, c, z)) : Shown ids Q q := ⟨k', hk', SameTet.trans' hz (mem_twelve.1 hq)⟩
  have g : ∀ q ∈ twelve (b, a, c, z), 0 < F h q x0 → 0 < F h q x' := fun q hq hp => ((hc.same q (t' q hq) hp.ne').2).2 hp
  refine ⟨?_, g (b, z, a, c) (by simp [twelve]) f1, g (b, c, z, a) (by simp [twelve]) f2, g (a, z, c, b) (by simp [twelve]) f3⟩
  have := F_swap (h := h) a b c d z x'
  have h7 : 0 < F h (b, a, c, z) x' := by rw [this]; linarith
  exact h7

/-- Only one face of a tet is crossed. -/
theorem one_face {a b c d a' b' c' d' : VId} {x : Vec4 K} (hs : SameTet (a, b, c, d) (a', b', c', d'))
    (h1 : F h (a, b, c, d) x = 0) (h2 : F h (a', b', c', d') x = 0)
    (e : ∀ p q r s, (p, q, r, s) ∈ twelve (a, b, c, d) → F h (p, q, r, s) x = 0 → F h (p, s, q, r) x ≠ 0) :
    (a' = a ∧ b' = b ∧ c' = c) ∨ (a' = b ∧ b' = c ∧ c' = a) ∨ (a' = c ∧ b' = a ∧ c' = b) := by
  have cyc (p q r : VId) : det (h q) (h r) (h p) x = det (h p) (h q) (h r) x := by simp only [det, det3]; ring
  have z1 : F h (b, c, a, d) x = 0 := (cyc ..).trans h1
  have z2 : F h (c, a, b, d) x = 0 := (cyc ..).trans z1
  have e1 : det (h a) (h d) (h b) x ≠ 0 := e a b c d (by simp [twelve]) h1
  have e2 : det (h b) (h d) (h c) x ≠ 0 := e b c a d (by simp [twelve]) z1
  have e3 : det (h c) (h d) (h a) x ≠ 0 := e c a b d (by simp [twelve]) z2
  have f1 := cyc a d b ▸ e1
  have f2 := cyc b d c ▸ e2
  have f3 := cyc c d a ▸ e3
  have g1 := cyc d b a ▸ f1
  have g2 := cyc d c b ▸ f2
  have g3 := cyc d a c ▸ f3
  have h2 : det (h a') (h b') (h c') x = 0 := h2
  clear e h1 z1 z2 cyc
  rw [← mem_twelve] at hs
  simp only [twelve, List.mem_cons, List.not_mem_nil, or_false, Prod.mk.injEq] at hs
  generalize hdet : det (K := K) = dd at *
  rcases hs with ⟨rfl, rfl, rfl, rfl⟩ | ⟨rfl, rfl, rfl, rfl⟩ | ⟨rfl, rfl, rfl, rfl⟩ | ⟨rfl, rfl, rfl, rfl⟩ | ⟨rfl, rfl, rfl, rfl⟩ |
    ⟨rfl, rfl, rfl, rfl⟩ | ⟨rfl, rfl, rfl, rfl⟩ | ⟨rfl, rfl, rfl, rfl⟩ | ⟨rfl, rfl, rfl, rfl⟩ | ⟨rfl, rfl, rfl, rfl⟩ |
    ⟨rfl, rfl, rfl, rfl⟩ | ⟨rfl, rfl, rfl, rfl⟩
  all_goals first
    | exact .inl ⟨rfl, rfl, rfl⟩
    | exact .inr (.inl ⟨rfl, rfl, rfl⟩)
    | exact .inr (.inr ⟨rfl, rfl, rfl⟩)
    | exact absurd h2 e1
    | exact absurd h2 e2
    | exact absurd h2 e3
    | exact absurd h2 f1
    | exact absurd h2 f2
    | exact absurd h2 f3
    | exact absurd h2 g1
    | exact absurd h2 g2
    | exact absurd h2 g3

theorem Crossing.le {x x0 x' : Vec4 K} (hc : Crossing h (Shown ids Q) x x0 x') (hg : Glued ids Q)
    (pos : ∀ k ∈ ids, 0 < D h (Q k)) : (holders h ids Q x).card ≤ (holders h ids Q x').card := by
  classical
  have key : ∀ k ∈ holders h ids Q x, ∃ k' ∈ holders h ids Q x', (Cell h (Q k) x' ∧ k' = k) ∨
      (¬ Cell h (Q k') x ∧ ∃ a b c d z, SameTet (Q k) (a, b, c, d) ∧ SameTet (Q k') (b, a, c, z) ∧ F h (b, a, c, z) x0 = 0) := by
    intro k hk
    obtain ⟨hk, h1⟩ := Finset.mem_filter.1 hk
    by_cases h2 : Cell h (Q k) x'
    · exact ⟨k, Finset.mem_filter.2 ⟨hk, h2⟩, .inl ⟨h2, rfl⟩⟩
    · obtain ⟨a, b, c, d, hs, h3, h4⟩ := hc.enters pos hk h1 h2
      obtain ⟨k', hk', z, hz⟩ := hg.adj k hk a b c d hs
      refine ⟨k', Finset.mem_filter.2 ⟨hk', h4 k' hk' z hz⟩, .inr ⟨fun h5 => ?_, a, b, c, d, z, hs, hz, ?_⟩⟩
      · have j1 := Cell_iff.1 h1 _ hs
        have j2 := Cell_iff.1 h5 _ hz
        have := F_swap (h := h) a b c d z x
        linarith
      · rw [F_swap a b c d z, h3.plane, neg_zero]
  choose! f hf hf' using key
  refine Finset.card_le_card_of_injOn f hf ?_
  intro k hk k2 hk2 heq
  obtain ⟨ik, ck⟩ := Finset.mem_filter.1 hk
  obtain ⟨ik2, ck2⟩ := Finset.mem_filter.1 hk2
  rcases hf' k hk with ⟨-, h1⟩ | ⟨n1, a, b, c, d, z, s1, s2, s3⟩ <;>
    rcases hf' k2 hk2 with ⟨-, h1'⟩ | ⟨n1', a', b', c', d', z', s1', s2', s3'⟩
  · rw [← h1, ← h1', heq]
  · rw [← heq, h1] at n1'
    exact absurd ck n1'
  · rw [heq, h1'] at n1
    exact absurd ck2 n1
  · rw [← heq] at s2'
    obtain ⟨ij, -⟩ := Finset.mem_filter.1 (hf k hk)
    -- the same triangle of the tet that is entered
    have hs := SameTet.trans' (SameTet.symm' s2) s2'
    have e (p q r s : VId) (i1 : (p, q, r, s) ∈ twelve (b, a, c, z)) (i3 : F h (p, q, r, s) x0 = 0) : F h (p, s, q, r) x0 ≠ 0 :=
      hc.edge p q r s ⟨_, ij, SameTet.trans' s2 (mem_twelve.1 i1)⟩ i3
    have u1 : SameTet (Q k2) (b', c', a', d') := SameTet.trans' s1' (mem_twelve.1 (by simp [twelve]))
    have u2 : SameTet (Q k2) (c', a', b', d') := SameTet.trans' s1' (mem_twelve.1 (by simp [twelve]))
    rcases one_face hs s3 s3' e with ⟨rfl, rfl, rfl⟩ | ⟨rfl, rfl, rfl⟩ | ⟨rfl, rfl, rfl⟩
    · exact hg.uniq k ik k2 ik2 _ _ _ _ _ s1 s1'
    · exact hg.uniq k ik k2 ik2 _ _ _ _ _ s1 u1
    · exact hg.uniq k ik k2 ik2 _ _ _ _ _ s1 u2

/-- All triangles of the tets as functions. -/
def faceList (h : VId → Vec4 K) (ids : Finset Nat) (Q : Nat → V4) : List (Vec4 K →ₗ[K] K) :=
  (full ((ids.sort (· ≤ ·)).map Q)).map (F h)

theorem mem_faceList {f : Vec4 K →ₗ[K] K} : f ∈ faceList h ids Q ↔ ∃ q, Shown ids Q q ∧ F h q = f := by
  simp only [faceList, List.mem_map, mem_full, Shown, exists_exists_and_eq_and, Finset.mem_sort]

/-- Same signs, same tets. -/
theorem holders_congr {x y : Vec4 K} (hs : ∀ q, Shown ids Q q → (0 < F h q x ↔ 0 < F h q y)) :
    holders h ids Q x = holders h ids Q y := by
  classical
  ext k
  simp only [holders, Finset.mem_filter]
  refine and_congr_right fun hk => ?_
  rw [Cell_iff, Cell_iff]
  exact forall_congr' fun q => imp_congr_right fun hq => hs q ⟨k, hk, hq⟩

/-- The segment to `y` meets no edge. -/
def Clear (h : VId → Vec4 K) (S : V4 → Prop) (x y : Vec4 K) : Prop :=
  ∀ a b c d, S (a, b, c, d) → det (h a) (h b) x y ≠ 0

theorem countP_lt {α : Type} {p q : α → Bool} {l : List α} {a : α} (ha : a ∈ l)
    (hpq : ∀ b ∈ l, p b = true → q b = true) (hqa : q a = true) (hpa : ¬ p a = true) :
    l.countP p < l.countP q := by
  induction l with
  | nil => cases ha
  | cons b l ih =>
    rw [List.countP_cons, List.countP_cons]
    have hle : l.countP p ≤ l.countP q := List.countP_mono_left fun c hc => hpq c (List.mem_cons_of_mem _ hc)
    rcases List.mem_cons.1 ha with rfl | h
    · rw [if_neg hpa, if_pos hqa]
      omega
    · have := ih h fun c hc => hpq c (List.mem_cons_of_mem _ hc)
      have := hpq b List.mem_cons_self
      split_ifs with h1 h2 <;> first | omega | exact absurd (this h1) h2

/-- The segment avoids the lines of edges. -/
def Avoids (h : VId → Vec4 K) (S : V4 → Prop) (x y : Vec4 K) : Prop :=
  ∀ a b c d, S (a, b, c, d) → ∀ t : K, 0 ≤ t → t ≤ 1 → ∀ k l : K, x + t • (y - x) ≠ k • h a + l • h b

theorem Clear.avoids {S : V4 → Prop} {x y : Vec4 K} (hc : Clear h S x y) : Avoids h S x y := by
  intro a b c d hS t h0 h1 k l he
  have k1 : det (h a) (h b) y (x + t • (y - x)) = (1 - t) * det (h a) (h b) y x := by
    simp only [sub_eq_add_neg, det_add, det_smul, det_neg, self2]
    ring
  have k2 : det (h a) (h b) x (x + t • (y - x)) = t * det (h a) (h b) x y := by
    simp only [sub_eq_add_neg, det_add, det_smul, det_neg, self2]
    ring
  have z : ∀ v, det (h a) (h b) v (k • h a + l • h b) = 0 := by
    intro v
    simp only [det_add, det_smul, self0, self1, mul_zero, add_zero]
  rw [he, z] at k1 k2
  have hn := hc a b c d hS
  have hn' : det (h a) (h b) y x ≠ 0 := by rw [swap2]; exact neg_ne_zero.2 hn
  have e1 := (mul_eq_zero.1 k1.symm).resolve_right hn'
  have e2 := (mul_eq_zero.1 k2.symm).resolve_right hn
  linarith

theorem Avoids.later {S : V4 → Prop} {x y : Vec4 K} (ha : Avoids h S x y) {t : K} (h0 : 0 ≤ t) (h1 : t ≤ 1) :
    Avoids h S (x + t • (y - x)) y := by
  intro a b c d hS r r0 r1 k l he
  refine ha a b c d hS (t + r * (1 - t)) ?_ ?_ k l ?_
  · have := mul_nonneg r0 (by linarith : 0 ≤ 1 - t)
    linarith
  · have := mul_le_mul_of_nonneg_right r1 (by linarith : 0 ≤ 1 - t)
    linarith
  · rw [← he]
    module

/-- How many planes are crossed. -/
def crossed (h : VId → Vec4 K) (ids : Finset Nat) (Q : Nat → V4) (x y : Vec4 K) : Nat :=
  (faceList h ids Q).countP fun f => decide (f x * f y < 0)

/-- On the way to `y`: nothing happens, or there is a first crossing. -/
theorem segment_step (pos : ∀ k ∈ ids, 0 < D h (Q k)) {x y : Vec4 K} (hx : Free h (Shown ids Q) x)
    (hy : Free h (Shown ids Q) y) (hclear : Avoids h (Shown ids Q) x y) :
    (∀ q, Shown ids Q q → (0 < F h q x ↔ 0 < F h q y)) ∨
    ∃ t0 t1 : K, 0 < t0 ∧ t0 < t1 ∧ t1 < 1 ∧ Crossing h (Shown ids Q) x (x + t0 • (y - x)) (x + t1 • (y - x)) ∧
      crossed h ids Q (x + t1 • (y - x)) y < crossed h ids Q x y := by
  classical
  let L := faceList h ids Q
  let B := L.filter fun f => decide (f x * f y < 0)
  have hB : ∀ f, f ∈ B ↔ (∃ q, Shown ids Q q ∧ F h q = f) ∧ f x * f y < 0 := by
    intro f
    simp only [B, L, List.mem_filter, mem_faceList, decide_eq_true_eq]
  by_cases hb : B = []
  · left
    intro q hq
    have h1 : ¬ F h q x * F h q y < 0 := by
      intro hlt
      have := (hB (F h q)).2 ⟨⟨q, hq, rfl⟩, hlt⟩
      rw [hb] at this
      cases this
    have h2 := hx q hq
    have h3 := hy q hq
    constructor
    · intro h4
      by_contra h5
      exact h1 (mul_neg_of_pos_of_neg h4 (lt_of_le_of_ne (not_lt.1 h5) h3))
    · intro h4
      by_contra h5
      exact h1 (mul_neg_of_neg_of_pos (lt_of_le_of_ne (not_lt.1 h5) h2) h4)
  · right
    -- the first crossing
    obtain ⟨f0, hf0, hmin⟩ := Finset.exists_min_image B.toFinset (fun f => f x / (f x - f y))
      ⟨B.head hb, by simp⟩
    rw [List.mem_toFinset] at hf0
    have hmin : ∀ f ∈ B, f0 x / (f0 x - f0 y) ≤ f x / (f x - f y) := fun f hf => hmin f (by simpa using hf)
    set t0 := f0 x / (f0 x - f0 y) with ht0
    -- facts on such quotients
    have quot : ∀ {a b : K}, a * b < 0 → 0 < a / (a - b) ∧ a / (a - b) < 1 := by
      intro a b hab
      rcases mul_neg_iff.1 hab with ⟨ha, hb⟩ | ⟨ha, hb⟩
      · exact ⟨div_pos ha (by linarith), by rw [div_lt_one (by linarith)]; linarith⟩
      · exact ⟨div_pos_of_neg_of_neg ha (by linarith), by rw [div_lt_one_of_neg (by linarith)]; linarith⟩
    obtain ⟨ht1, ht2⟩ := quot ((hB f0).1 hf0).2
    let u := y - x
    let x0 := x + t0 • u
    have fx0 : ∀ f : Vec4 K →ₗ[K] K, f x0 = f x + t0 * (f y - f x) := by
      intro f
      simp only [x0, u, map_add, map_smul, map_sub, smul_eq_mul]
    -- a little further
    obtain ⟨e, he, hsm⟩ := small ((L.filter fun f => decide (f x0 ≠ 0)).map fun f => if 0 < f x0 then f else -f) x0 u (by
      intro g hgm
      obtain ⟨f, hf, rfl⟩ := List.mem_map.1 hgm
      obtain ⟨-, hf⟩ := List.mem_filter.1 hf
      have hf : f x0 ≠ 0 := by simpa using hf
      left
      split_ifs with h0
      · exact h0
      · rw [LinearMap.neg_apply, neg_pos]
        exact lt_of_le_of_ne (not_lt.1 h0) hf)
    let s := min e ((1 - t0) / 2)
    have hs0 : 0 < s := lt_min he (by linarith)
    have hs1 : t0 + s < 1 := by
      have : s ≤ (1 - t0) / 2 := min_le_right _ _
      linarith
    have hsm := hsm s hs0 (min_le_left _ _)
    let x' := x0 + s • u
    have fx' : ∀ f : Vec4 K →ₗ[K] K, f x' = f x0 + s * (f y - f x) := by
      intro f
      simp only [x', u, map_add, map_smul, map_sub, smul_eq_mul]
    -- signs
    have sgn : ∀ q, Shown ids Q q → (F h q x0 ≠ 0 → F h q x' ≠ 0 ∧ (0 < F h q x' ↔ 0 < F h q x0) ∧
        (0 < F h q x ↔ 0 < F h q x0)) ∧ (F h q x0 = 0 → F h q x * F h q y < 0 ∧ F h q x' * F h q x < 0 ∧ 0 < F h q x' * F h q y) := by
      intro q hq
      have hL : F h q ∈ L := mem_faceList.2 ⟨q, hq, rfl⟩
      have nx := hx q hq
      have ny := hy q hq
      have e0 := fx0 (F h q)
      have e1 := fx' (F h q)
      have hm : F h q x * F h q y < 0 → t0 ≤ F h q x / (F h q x - F h q y) := fun hlt =>
        hmin _ ((hB _).2 ⟨⟨q, hq, rfl⟩, hlt⟩)
      constructor
      · intro h0
        have h1 := hsm (if 0 < F h q x0 then F h q else -F h q) (List.mem_map.2 ⟨F h q, List.mem_filter.2 ⟨hL, by simpa using h0⟩, rfl⟩)
        have h2 : F h q x' ≠ 0 ∧ (0 < F h q x' ↔ 0 < F h q x0) := by
          split_ifs at h1 with h3
          · exact ⟨h1.ne', fun _ => h3, fun _ => h1⟩
          · rw [LinearMap.neg_apply, neg_pos] at h1
            exact ⟨h1.ne, fun h => absurd h h1.not_gt, fun h => absurd h h3⟩
        refine ⟨h2.1, h2.2, ?_⟩
        generalize F h q x = a at *
        generalize F h q y = b at *
        generalize F h q x0 = c at *
        rcases lt_or_gt_of_ne nx with ha | ha
        · refine ⟨fun h => absurd h ha.not_gt, fun hc => ?_⟩
          exfalso
          have hb : 0 < b := by
            by_contra hb
            have := mul_nonpos_of_nonneg_of_nonpos ht1.le (not_lt.1 hb)
            have := mul_nonpos_of_nonneg_of_nonpos (by linarith : 0 ≤ 1 - t0) ha.le
            nlinarith
          have := hm (mul_neg_of_neg_of_pos ha hb)
          rw [le_div_iff_of_neg (by linarith)] at this
          nlinarith
        · refine ⟨fun _ => ?_, fun _ => ha⟩
          by_contra hc
          have hc : c < 0 := lt_of_le_of_ne (not_lt.1 hc) h0
          have hb : b < 0 := by
            by_contra hb
            have := mul_nonneg ht1.le (not_lt.1 hb)
            have := mul_nonneg (by linarith : 0 ≤ 1 - t0) ha.le
            nlinarith
          have := hm (mul_neg_of_pos_of_neg ha hb)
          rw [le_div_iff₀ (by linarith)] at this
          nlinarith
      · intro h0
        rw [h0] at e0
        generalize F h q x = a at *
        generalize F h q y = b at *
        generalize F h q x' = c at *
        have hba : b - a = -a / t0 := by
          rw [eq_div_iff ht1.ne']
          linarith
        have hb : b = -a * ((1 - t0) / t0) := by
          have : b = a + -a / t0 := by linarith
          rw [this, sub_div, div_self ht1.ne']
          ring
        have hc : c = -a * (s / t0) := by
          rw [e1, h0, hba]
          ring
        have r1 : 0 < (1 - t0) / t0 := div_pos (by linarith) ht1
        have r2 : 0 < s / t0 := div_pos hs0 ht1
        have aa : 0 < a * a := mul_self_pos.2 nx
        refine ⟨?_, ?_, ?_⟩
        · rw [hb]
          have := mul_pos aa r1
          nlinarith
        · rw [hc]
          have := mul_pos aa r2
          nlinarith
        · rw [hb, hc]
          have := mul_pos (mul_pos aa r2) r1
          nlinarith
    have hx' : Free h (Shown ids Q) x' := by
      intro q hq
      by_cases h0 : F h q x0 = 0
      · intro h1
        have := ((sgn q hq).2 h0).2.1
        rw [h1, zero_mul] at this
        exact lt_irrefl _ this
      · exact ((sgn q hq).1 h0).1
    have hcross : Crossing h (Shown ids Q) x x0 x' := by
      refine ⟨hx, hx', fun q hq h0 => ⟨((sgn q hq).1 h0).2.2, ((sgn q hq).1 h0).2.1⟩, fun q hq h0 => ?_, ?_⟩
      · have := ((sgn q hq).2 h0).2.1
        rcases mul_neg_iff.1 this with ⟨h1, h2⟩ | ⟨h1, h2⟩
        · exact ⟨fun h => absurd h h2.not_gt, fun h => absurd h h1.not_gt⟩
        · exact ⟨fun _ => h1, fun _ => h2⟩
      · intro a b c d hS h1 h2
        have pD : 0 < D h (a, b, c, d) := by
          obtain ⟨k, hk, hs⟩ := hS
          rw [D_same hs]
          exact pos k hk
        have pD' : det (h a) (h b) (h c) (h d) ≠ 0 := pD.ne'
        have h1 : det (h a) (h b) (h c) x0 = 0 := h1
        have h2 : det (h a) (h d) (h b) x0 = 0 := h2
        obtain ⟨ka, kb, kc, kd, hxx⟩ := basis pD' x0
        have hd : kd = 0 := by
          rw [hxx] at h1
          simp only [det_add, det_smul, self0, self1, self2, mul_zero, zero_add] at h1
          exact (mul_eq_zero.1 h1).resolve_right pD'
        have hc : kc = 0 := by
          rw [hxx] at h2
          simp only [det_add, det_smul, self0, self1, self2, mul_zero, zero_add, add_zero] at h2
          refine (mul_eq_zero.1 h2).resolve_right ?_
          rw [show det (h a) (h d) (h b) (h c) = det (h a) (h b) (h c) (h d) by simp only [det, det3]; ring]
          exact pD'
        refine hclear a b c d hS t0 ht1.le ht2.le ka kb ?_
        change x0 = _
        rw [hxx, hc, hd]
        module
    have hlt : L.countP (fun f => decide (f x' * f y < 0)) < L.countP (fun f => decide (f x * f y < 0)) := by
      refine countP_lt (a := f0) (mem_faceList.2 ((hB f0).1 hf0).1) ?_ ?_ ?_
      · intro f hf
        obtain ⟨q, hq, rfl⟩ := mem_faceList.1 hf
        simp only [decide_eq_true_eq]
        intro h1
        by_cases h0 : F h q x0 = 0
        · exact absurd h1 ((sgn q hq).2 h0).2.2.not_gt
        · have h2 := (sgn q hq).1 h0
          have h3 : 0 < F h q x' ↔ 0 < F h q x := h2.2.1.trans h2.2.2.symm
          rcases mul_neg_iff.1 h1 with ⟨h4, h5⟩ | ⟨h4, h5⟩
          · exact mul_neg_of_pos_of_neg (h3.1 h4) h5
          · refine mul_neg_of_neg_of_pos ?_ h5
            exact lt_of_le_of_ne (not_lt.1 fun h6 => h4.not_gt (h3.2 h6)) (hx q hq)
      · simpa using ((hB f0).1 hf0).2
      · obtain ⟨⟨q, hq, rfl⟩, hlt⟩ := (hB f0).1 hf0
        have h0 : F h q x0 = 0 := by
          rw [fx0, ht0]
          have : F h q x - F h q y ≠ 0 := by
            intro h1
            rw [sub_eq_zero.1 h1] at hlt
            exact hlt.not_ge (mul_self_nonneg _)
          have h1 : F h q y - F h q x = -(F h q x - F h q y) := by ring
          rw [h1, mul_neg, div_mul_cancel₀ _ this]
          ring
        simpa using ((sgn q hq).2 h0).2.2.le
    have ex' : x' = x + (t0 + s) • (y - x) := by
      simp only [x', x0, u]
      module
    rw [ex'] at hcross hlt
    exact ⟨t0, t0 + s, ht1, by linarith, hs1, hcross, hlt⟩

theorem count_segment (hg : Glued ids Q) (pos : ∀ k ∈ ids, 0 < D h (Q k)) {y : Vec4 K} (hy : Free h (Shown ids Q) y) :
    ∀ (n : Nat) (x : Vec4 K), Free h (Shown ids Q) x → Avoids h (Shown ids Q) x y → crossed h ids Q x y = n →
      (holders h ids Q x).card = (holders h ids Q y).card := by
  intro n
  induction n using Nat.strong_induction_on with
  | _ n ih =>
    intro x hx hclear hn
    rcases segment_step pos hx hy hclear with h1 | ⟨t0, t1, h0, h1, h2, hcross, hlt⟩
    · rw [holders_congr h1]
    · rw [← ih _ (by rw [← hn]; exact hlt) _ hcross.after (hclear.later (by linarith) h2.le) rfl]
      exact le_antisymm (hcross.le hg pos) (hcross.symm.le hg pos)

/-- All vectors in no plane of a triangle are in equally many tets. -/
theorem count_const (hg : Glued ids Q) (pos : ∀ k ∈ ids, 0 < D h (Q k)) {x y : Vec4 K} (hx : Free h (Shown ids Q) x)
    (hy : Free h (Shown ids Q) y) : (holders h ids Q x).card = (holders h ids Q y).card := by
  classical
  have hall : ∀ q, q ∈ full ((ids.sort (· ≤ ·)).map Q) ↔ Shown ids Q q := by
    intro q
    simp only [List.mem_map, mem_full, Shown, exists_exists_and_eq_and, Finset.mem_sort]
  obtain ⟨z, hz1, hz2⟩ := near ((full ((ids.sort (· ≤ ·)).map Q)).map fun q => fun3 (h q.1) (h q.2.1) x)
    ((faceList h ids Q).map fun f => if 0 < f y then f else -f) y (by
      intro f hf h0
      obtain ⟨⟨a, b, c, d⟩, hq, rfl⟩ := List.mem_map.1 hf
      have h1 := hx _ ((hall _).1 hq)
      have h2 := LinearMap.congr_fun h0 (h c)
      refine h1 ?_
      have h3 : det (h a) (h b) x (h c) = 0 := h2
      change det (h a) (h b) (h c) x = 0
      rw [swap2, h3, neg_zero]) (by
      intro g hg
      obtain ⟨f, hf, rfl⟩ := List.mem_map.1 hg
      obtain ⟨q, hq, rfl⟩ := mem_faceList.1 hf
      split_ifs with h0
      · exact h0
      · rw [LinearMap.neg_apply, neg_pos]
        exact lt_of_le_of_ne (not_lt.1 h0) (hy q hq))
  have sg : ∀ q, Shown ids Q q → F h q z ≠ 0 ∧ (0 < F h q z ↔ 0 < F h q y) := by
    intro q hq
    have := hz2 _ (List.mem_map.2 ⟨F h q, mem_faceList.2 ⟨q, hq, rfl⟩, rfl⟩)
    split_ifs at this with h0
    · exact ⟨this.ne', fun _ => h0, fun _ => this⟩
    · rw [LinearMap.neg_apply, neg_pos] at this
      exact ⟨this.ne, fun h => absurd h this.not_gt, fun h => absurd h h0⟩
  rw [← holders_congr fun q hq => (sg q hq).2]
  refine count_segment hg pos (fun q hq => (sg q hq).1) _ x hx (Clear.avoids fun a b c d hS => ?_) rfl
  exact hz1 _ (List.mem_map.2 ⟨(a, b, c, d), (hall _).2 hS, rfl⟩)

/-- A vector in exactly one tet is enough for all of them to be. -/
theorem Glued.fan (hg : Glued ids Q) (pos : ∀ k ∈ ids, 0 < D h (Q k)) {x : Vec4 K} (hx : Free h (Shown ids Q) x)
    (h1 : (holders h ids Q x).card = 1) (wt : Vec4 K →ₗ[K] K) : Fan h wt (Shown ids Q) := by
  classical
  refine ⟨?_, ?_, ?_, ?_⟩
  · rintro p q ⟨k, hk, hs⟩ hpq
    exact ⟨k, hk, SameTet.trans' hs hpq⟩
  · refine (List.finite_toSet (full ((ids.sort (· ≤ ·)).map Q))).subset ?_
    intro q hq
    simpa only [List.mem_map, mem_full, Shown, exists_exists_and_eq_and, Finset.mem_sort, Set.mem_setOf_eq] using hq
  · rintro q ⟨k, hk, hs⟩
    rw [D_same hs]
    exact pos k hk
  · intro y _ hy
    have h2 := count_const hg pos hx hy
    rw [h1] at h2
    obtain ⟨k, hk⟩ := Finset.card_eq_one.1 h2.symm
    have hk' : ∀ k', k' ∈ holders h ids Q y ↔ k' = k := by simp [hk]
    simp only [holders, Finset.mem_filter] at hk'
    obtain ⟨i1, i2⟩ := (hk' k).2 rfl
    refine ⟨Q k, ⟨k, i1, EvenRearr.refl _⟩, i2, ?_⟩
    rintro q ⟨k', hk1, hs⟩ hq
    have := (hk' k').1 ⟨hk1, (Cell_same hs).1 hq⟩
    rw [← this]
    exact hs

end Tet
