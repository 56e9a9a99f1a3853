import Mathlib.Tactic.LinearCombination
import Mathlib.Algebra.BigOperators.Group.Finset.Basic
import Mathlib.Algebra.BigOperators.Ring.List
import Verif.Proofs.TriPlane

/-!
# Triangles that close up cover what is inside their boundary

By counting how often the ray from a point crosses the boundary.
-/

namespace Tet
open Spec
variable {K : Type} [Field K] [LinearOrder K] [IsStrictOrderedRing K]

/-- How the segment from `u` to `v` crosses the ray from `q` to the right: upwards, downwards or not. -/
def crosses (q u v : K × K) : ℤ :=
  if u.2 ≤ q.2 ∧ q.2 < v.2 ∧ 0 < planeSide u v q then 1
  else if v.2 ≤ q.2 ∧ q.2 < u.2 ∧ planeSide u v q < 0 then -1 else 0

theorem planeSide_rev (u v q : K × K) : planeSide v u q = -planeSide u v q := by
  simp only [planeSide]
  ring

theorem crosses_rev (q u v : K × K) : crosses q v u = -crosses q u v := by
  unfold crosses
  rw [planeSide_rev]
  split_ifs <;> simp_all <;> exfalso <;> grind

/-- Whether the point is strictly inside the triangle. -/
def In2 (a b c q : K × K) : Prop := 0 < planeSide a b q ∧ 0 < planeSide b c q ∧ 0 < planeSide c a q

instance (a b c q : K × K) : Decidable (In2 a b c q) := by unfold In2; infer_instance

theorem crosses_tri {a b c q : K × K} (hp : 0 < planeSide a b c) (h1 : planeSide a b q ≠ 0) (h2 : planeSide b c q ≠ 0) (h3 : planeSide c a q ≠ 0) :
    crosses q a b + crosses q b c + crosses q c a = if In2 a b c q then 1 else 0 := by
  have e1 : planeSide a b q + planeSide b c q + planeSide c a q = planeSide a b c := by simp only [planeSide]; ring
  have e2 : planeSide b c q * (a.2 - q.2) + planeSide c a q * (b.2 - q.2) + planeSide a b q * (c.2 - q.2) = 0 := by simp only [planeSide]; ring
  -- the impossible signs
  have key : ∀ {s t r x y z : K}, s * x + t * y + r * z = 0 → x ≤ 0 → y ≤ 0 → 0 < z → (0 < s → 0 < t → 0 ≤ r) ∧ (s < 0 → t < 0 → r ≤ 0) := by
    intro s t r x y z h hx hy hz
    constructor
    · intro hs ht
      by_contra hr
      nlinarith [mul_nonneg hs.le (neg_nonneg.2 hx), mul_nonneg ht.le (neg_nonneg.2 hy), mul_pos (neg_pos.2 (not_le.1 hr)) hz]
    · intro hs ht
      by_contra hr
      nlinarith [mul_nonneg (neg_nonneg.2 hs.le) (neg_nonneg.2 hx), mul_nonneg (neg_nonneg.2 ht.le) (neg_nonneg.2 hy), mul_pos (not_le.1 hr) hz]
  have key' : ∀ {s t r x y z : K}, s * x + t * y + r * z = 0 → 0 < x → 0 < y → z ≤ 0 → (0 < s → 0 < t → 0 ≤ r) ∧ (s < 0 → t < 0 → r ≤ 0) := by
    intro s t r x y z h hx hy hz
    constructor
    · intro hs ht
      by_contra hr
      nlinarith [mul_pos hs hx, mul_pos ht hy, mul_nonneg (neg_nonneg.2 (not_le.1 hr).le) (neg_nonneg.2 hz)]
    · intro hs ht
      by_contra hr
      nlinarith [mul_pos (neg_pos.2 hs) hx, mul_pos (neg_pos.2 ht) hy, mul_nonneg (not_le.1 hr).le (neg_nonneg.2 hz)]
  have all : ∀ {s t r x y z : K}, s * x + t * y + r * z = 0 → 0 < x → 0 < y → 0 < z → ¬ (0 < s ∧ 0 < t ∧ 0 < r) := by
    rintro s t r x y z h hx hy hz ⟨hs, ht, hr⟩
    nlinarith [mul_pos hs hx, mul_pos ht hy, mul_pos hr hz]
  have flat : a.2 - q.2 ≤ 0 → b.2 - q.2 ≤ 0 → c.2 - q.2 ≤ 0 → ¬ (0 < planeSide b c q ∧ 0 < planeSide c a q ∧ 0 < planeSide a b q) := by
    rintro hx hy hz ⟨hs, ht, hr⟩
    have n1 := mul_nonneg hs.le (neg_nonneg.2 hx)
    have n2 := mul_nonneg ht.le (neg_nonneg.2 hy)
    have n3 := mul_nonneg hr.le (neg_nonneg.2 hz)
    have z1 : planeSide b c q * -(a.2 - q.2) = 0 := by linarith
    have z2 : planeSide c a q * -(b.2 - q.2) = 0 := by linarith
    have z3 : planeSide a b q * -(c.2 - q.2) = 0 := by linarith
    have z1 := (mul_eq_zero.1 z1).resolve_left hs.ne'
    have z2 := (mul_eq_zero.1 z2).resolve_left ht.ne'
    have z3 := (mul_eq_zero.1 z3).resolve_left hr.ne'
    have y1 : a.2 = q.2 := by linarith
    have y2 : b.2 = q.2 := by linarith
    have y3 : c.2 = q.2 := by linarith
    have : planeSide a b c = 0 := by simp only [planeSide, y1, y2, y3]; ring
    exact hp.ne' this
  have e3 : planeSide c a q * (b.2 - q.2) + planeSide a b q * (c.2 - q.2) + planeSide b c q * (a.2 - q.2) = 0 := by linarith
  have e4 : planeSide a b q * (c.2 - q.2) + planeSide b c q * (a.2 - q.2) + planeSide c a q * (b.2 - q.2) = 0 := by linarith
  have le : ∀ x y : K, (x ≤ y ∧ ¬ y < x ∧ x - y ≤ 0) ∨ (y < x ∧ ¬ x ≤ y ∧ 0 < x - y) := fun x y => by
    rcases le_or_gt x y with h | h
    · exact .inl ⟨h, h.not_gt, sub_nonpos.2 h⟩
    · exact .inr ⟨h, h.not_ge, sub_pos.2 h⟩
  have ne : ∀ {s : K}, s ≠ 0 → (0 < s ∧ ¬ s < 0) ∨ (s < 0 ∧ ¬ 0 < s) := fun h => by
    rcases lt_or_gt_of_ne h with h | h
    · exact .inr ⟨h, h.not_gt⟩
    · exact .inl ⟨h, h.not_gt⟩
  unfold crosses In2
  rcases le a.2 q.2 with ⟨x1, x2, x3⟩ | ⟨x1, x2, x3⟩ <;> rcases le b.2 q.2 with ⟨y1, y2, y3⟩ | ⟨y1, y2, y3⟩ <;>
    rcases le c.2 q.2 with ⟨z1, z2, z3⟩ | ⟨z1, z2, z3⟩ <;> rcases ne h1 with ⟨s1, s1'⟩ | ⟨s1, s1'⟩ <;>
    rcases ne h2 with ⟨s2, s2'⟩ | ⟨s2, s2'⟩ <;> rcases ne h3 with ⟨s3, s3'⟩ | ⟨s3, s3'⟩ <;>
    simp only [x1, x2, y1, y2, z1, z2, s1, s1', s2, s2', s3, s3', true_and, false_and, and_true, and_false, if_true, if_false, and_self] <;>
    first
    | rfl
    | (exfalso; exact flat x3 y3 z3 ⟨s2, s3, s1⟩)
    | (exfalso; exact all e2 x3 y3 z3 ⟨s2, s3, s1⟩)
    | (exfalso; linarith [(key e2 x3 y3 z3).1 s2 s3])
    | (exfalso; linarith [(key e2 x3 y3 z3).2 s2 s3])
    | (exfalso; linarith [(key e3 y3 z3 x3).1 s3 s1])
    | (exfalso; linarith [(key e3 y3 z3 x3).2 s3 s1])
    | (exfalso; linarith [(key e4 z3 x3 y3).1 s1 s2])
    | (exfalso; linarith [(key e4 z3 x3 y3).2 s1 s2])
    | (exfalso; linarith [(key' e2 x3 y3 z3).1 s2 s3])
    | (exfalso; linarith [(key' e2 x3 y3 z3).2 s2 s3])
    | (exfalso; linarith [(key' e3 y3 z3 x3).1 s3 s1])
    | (exfalso; linarith [(key' e3 y3 z3 x3).2 s3 s1])
    | (exfalso; linarith [(key' e4 z3 x3 y3).1 s1 s2])
    | (exfalso; linarith [(key' e4 z3 x3 y3).2 s1 s2])

/-- Points on a segment, in order: the crossings add up. -/
theorem crosses_add {q u v w : K × K} {r s : K} (hr : 0 ≤ r) (hs : 0 ≤ s) (hrs : r + s = 1) (hv : v = (r * u.1 + s * w.1, r * u.2 + s * w.2)) :
    crosses q u v + crosses q v w = crosses q u w := by
  have f1 : planeSide u v q = s * planeSide u w q := by
    obtain rfl : r = 1 - s := by linarith
    rw [hv]; simp only [planeSide]; ring
  have f2 : planeSide v w q = r * planeSide u w q := by
    obtain rfl : s = 1 - r := by linarith
    rw [hv]; simp only [planeSide]; ring
  have hv2 : v.2 = r * u.2 + s * w.2 := by rw [hv]
  have le : ∀ x y : K, (x ≤ y ∧ ¬ y < x) ∨ (y < x ∧ ¬ x ≤ y) := fun x y => by
    rcases le_or_gt x y with h | h
    · exact .inl ⟨h, h.not_gt⟩
    · exact .inr ⟨h, h.not_ge⟩
  have b1 : u.2 ≤ q.2 → w.2 ≤ q.2 → v.2 ≤ q.2 := fun h1 h2 => by
    have k1 := mul_le_mul_of_nonneg_left h1 hr
    have k2 := mul_le_mul_of_nonneg_left h2 hs
    have k3 : r * q.2 + s * q.2 = q.2 := by rw [← add_mul, hrs, one_mul]
    linarith
  have b2 : q.2 < u.2 → q.2 < w.2 → q.2 < v.2 := fun h1 h2 => by
    rw [hv2]
    rcases hr.lt_or_eq with h | rfl
    · have k1 := mul_lt_mul_of_pos_left h1 h
      have k2 := mul_le_mul_of_nonneg_left h2.le hs
      have k3 : r * q.2 + s * q.2 = q.2 := by rw [← add_mul, hrs, one_mul]
      linarith
    · obtain rfl : s = 1 := by linarith
      linarith
  have c1 : s = 0 → v.2 = u.2 := by rintro rfl; rw [hv2]; obtain rfl : r = 1 := by linarith
                                    ring
  have c2 : r = 0 → v.2 = w.2 := by rintro rfl; rw [hv2]; obtain rfl : s = 1 := by linarith
                                    ring
  unfold crosses
  rw [f1, f2]
  rcases hr.lt_or_eq with hr | hr
  · rcases hs.lt_or_eq with hs | hs
    · have g1 : ∀ x : K, 0 < s * x ↔ 0 < x := fun x => mul_pos_iff_of_pos_left hs
      have g2 : ∀ x : K, 0 < r * x ↔ 0 < x := fun x => mul_pos_iff_of_pos_left hr
      have g3 : ∀ x : K, s * x < 0 ↔ x < 0 := fun x => ⟨fun h => by_contra fun h' => (mul_nonneg hs.le (not_lt.1 h')).not_gt h, mul_neg_of_pos_of_neg hs⟩
      have g4 : ∀ x : K, r * x < 0 ↔ x < 0 := fun x => ⟨fun h => by_contra fun h' => (mul_nonneg hr.le (not_lt.1 h')).not_gt h, mul_neg_of_pos_of_neg hr⟩
      simp only [g1, g2, g3, g4]
      rcases le u.2 q.2 with ⟨x1, x2⟩ | ⟨x1, x2⟩ <;> rcases le v.2 q.2 with ⟨y1, y2⟩ | ⟨y1, y2⟩ <;>
        rcases le w.2 q.2 with ⟨z1, z2⟩ | ⟨z1, z2⟩ <;>
        simp only [x1, x2, y1, y2, z1, z2, true_and, false_and, if_false, add_zero, zero_add]
      · exact absurd (b1 x1 z1) y2
      · exact absurd (b2 x1 z1) y2
    · have h1 := c1 hs.symm
      obtain rfl : r = 1 := by linarith
      rw [← hs, h1, one_mul, zero_mul]
      simp
  · have h1 := c2 hr.symm
    obtain rfl : s = 1 := by linarith
    rw [← hr, h1, one_mul, zero_mul]
    simp

/-- The sum over a chain of points on a segment. -/
theorem crosses_chain (q : K × K) {a b : K × K} (pt : K → K × K) (hpt : ∀ t, pt t = (a.1 + t * (b.1 - a.1), a.2 + t * (b.2 - a.2))) :
    ∀ (ts : List K) (s : K), (s :: ts).IsChain (· < ·) →
      ((Spec.pairs ((s :: ts).map pt)).map fun e => crosses q e.1 e.2).sum = crosses q (pt s) (pt ((s :: ts).getLast (by simp)))
  | [], s, _ => by
    have := crosses_rev q (pt s) (pt s)
    simp only [List.map_cons, List.map_nil, Spec.pairs, List.sum_nil, List.getLast_singleton]
    omega
  | t :: ts, s, h => by
    obtain ⟨h1, h2⟩ := List.isChain_cons_cons.1 h
    have ih := crosses_chain q pt hpt ts t h2
    have hle : t ≤ (t :: ts).getLast (by simp) := by
      rcases List.mem_cons.1 (List.getLast_mem (l := t :: ts) (by simp)) with h | h
      · exact h.ge
      · exact ((List.pairwise_cons.1 (List.isChain_iff_pairwise.1 h2)).1 _ h).le
    simp only [List.map_cons, Spec.pairs, List.sum_cons] at ih ⊢
    rw [ih, List.getLast_cons (a := s) (List.cons_ne_nil t ts)]
    set l := (t :: ts).getLast (List.cons_ne_nil t ts)
    have hl : 0 < l - s := by linarith
    refine crosses_add (r := (l - t) / (l - s)) (s := (t - s) / (l - s)) (div_nonneg (by linarith) hl.le) (div_nonneg (by linarith) hl.le) ?_ ?_
    · rw [← add_div, div_eq_one_iff_eq hl.ne']
      ring
    · rw [hpt, hpt, hpt]
      refine Prod.ext ?_ ?_ <;> simp only <;> field_simp <;> ring

section
variable (pos : VId → K × K)

theorem sum_flatMap {ps : List V3} (f : VId × VId → ℤ) :
    ((ps.flatMap triEdges).map f).sum = (ps.map fun s => f (s.1, s.2.1) + f (s.2.1, s.2.2) + f (s.2.2, s.1)).sum := by
  induction ps with
  | nil => rfl
  | cons s ps ih =>
    rw [List.flatMap_cons, List.map_append, List.sum_append, ih, List.map_cons, List.sum_cons]
    simp [triEdges, add_assoc]

/-- Sides that are not in the boundary cancel. -/
theorem sum_sides {S L : List (VId × VId)} (hS : S.Nodup) (hL : L.Nodup) (hsub : ∀ e ∈ L, e ∈ S) (hne : ∀ e ∈ S, e.1 ≠ e.2)
    (hrev : ∀ e ∈ S, e ∉ L → (e.2, e.1) ∈ S) (hout : ∀ e ∈ S, (e.2, e.1) ∉ L) {f : VId × VId → ℤ} (hf : ∀ a b, f (b, a) = -f (a, b)) :
    (S.map f).sum = (L.map f).sum := by
  have h1 : (S.map f).sum = ∑ e ∈ S.toFinset, f e := (List.sum_toFinset f hS).symm
  have h2 : (L.map f).sum = ∑ e ∈ L.toFinset, f e := (List.sum_toFinset f hL).symm
  have hss : L.toFinset ⊆ S.toFinset := fun e he => List.mem_toFinset.2 (hsub e (List.mem_toFinset.1 he))
  rw [h1, h2, ← Finset.sum_sdiff hss, add_eq_right]
  refine Finset.sum_involution (fun e _ => (e.2, e.1)) ?_ ?_ ?_ ?_
  · rintro ⟨a, b⟩ -
    rw [hf]
    simp
  · rintro ⟨a, b⟩ he -
    simp only [Finset.mem_sdiff, List.mem_toFinset] at he
    intro h
    exact hne _ he.1 (Prod.mk.inj h).2
  · rintro ⟨a, b⟩ he
    simp only [Finset.mem_sdiff, List.mem_toFinset] at he ⊢
    exact ⟨hrev _ he.1 he.2, hout _ he.1⟩
  · rintro ⟨a, b⟩ -
    rfl

/-- Triangles that close up cover the triangle which is their boundary. -/
theorem cover2 {ps : List V3} {L : List (VId × VId)} (hps : ∀ s ∈ ps, 0 < planeSide (pos s.1) (pos s.2.1) (pos s.2.2))
    (hS : (ps.flatMap triEdges).Nodup) (hL : L.Nodup) (hsub : ∀ e ∈ L, e ∈ ps.flatMap triEdges)
    (hrev : ∀ e ∈ ps.flatMap triEdges, e ∉ L → (e.2, e.1) ∈ ps.flatMap triEdges) (hout : ∀ e ∈ ps.flatMap triEdges, (e.2, e.1) ∉ L)
    {q : K × K} (hq : ∀ e ∈ ps.flatMap triEdges, planeSide (pos e.1) (pos e.2) q ≠ 0) :
    ((ps.countP fun s => In2 (pos s.1) (pos s.2.1) (pos s.2.2) q : Nat) : ℤ) = (L.map fun e => crosses q (pos e.1) (pos e.2)).sum := by
  have hne : ∀ e ∈ ps.flatMap triEdges, e.1 ≠ e.2 := by
    intro e he h
    refine hq e he ?_
    rw [h]
    simp only [planeSide]
    ring
  rw [← sum_sides hS hL hsub hne hrev hout (f := fun e => crosses q (pos e.1) (pos e.2)) fun a b => crosses_rev .., sum_flatMap]
  have hin : ∀ s ∈ ps, ∀ e ∈ triEdges s, e ∈ ps.flatMap triEdges := fun s hs e he => List.mem_flatMap.2 ⟨s, hs, he⟩
  clear hS hsub hrev hout hne
  generalize ps.flatMap triEdges = S at *
  induction ps with
  | nil => rfl
  | cons s ps ih =>
    rw [List.countP_cons, List.map_cons, List.sum_cons, Nat.cast_add,
      ih (fun s hs => hps s (List.mem_cons_of_mem _ hs)) fun s hs => hin s (List.mem_cons_of_mem _ hs)]
    have h := hin s List.mem_cons_self
    rw [crosses_tri (hps s List.mem_cons_self) (hq (s.1, s.2.1) (h _ (by simp [triEdges])))
      (hq (s.2.1, s.2.2) (h _ (by simp [triEdges]))) (hq (s.2.2, s.1) (h _ (by simp [triEdges])))]
    rw [add_comm]
    congr 1
    simp only [decide_eq_true_eq]
    split_ifs <;> rfl

end

end Tet
