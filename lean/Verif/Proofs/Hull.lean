import Verif.Proofs.Lift
import Verif.Proofs.FlipInBase
import Verif.Proofs.Flip44
import Verif.Proofs.Alt
import Verif.Spec.Steps
import Mathlib.Data.Finset.Max
import Mathlib.Tactic.Abel

/-!
# Meshes that are convex when lifted
-/

namespace Tet
open Spec Vec5
variable {P V T : Type} {K : Type} [Field K]

/-- On which side of the tet the vector is. -/
def side (vec : VId → Vec5 K) (q : V4) (y : Vec5 K) : K := det (vec q.1) (vec q.2.1) (vec q.2.2.1) (vec q.2.2.2) y

theorem side_add (vec : VId → Vec5 K) (q : V4) (y z : Vec5 K) : side vec q (y + z) = side vec q y + side vec q z := det_add ..
theorem side_smul (vec : VId → Vec5 K) (q : V4) (k : K) (y : Vec5 K) : side vec q (k • y) = k * side vec q y := det_smul ..
theorem side_neg (vec : VId → Vec5 K) (q : V4) (y : Vec5 K) : side vec q (-y) = -side vec q y := det_neg ..

theorem side_zero (vec : VId → Vec5 K) {q : V4} {v : VId} (h : v ∈ [q.1, q.2.1, q.2.2.1, q.2.2.2]) : side vec q (vec v) = 0 := by
  simp only [List.mem_cons, List.not_mem_nil, or_false] at h
  rcases h with rfl | rfl | rfl | rfl
  · exact det_self0 ..
  · exact det_self1 ..
  · exact det_self2 ..
  · exact det_self3 ..

theorem side_same (vec : VId → Vec5 K) {p q : V4} (h : SameTet p q) (y : Vec5 K) : side vec q y = side vec p y := by
  obtain ⟨a, b, c, d⟩ := p
  obtain ⟨a', b', c', d'⟩ := q
  exact alt_even (fun x : K => -x) neg_neg (fun a b c d => det (vec a) (vec b) (vec c) (vec d) y) (fun _ => True)
    (fun _ _ _ => trivial) (fun _ _ _ _ _ => det_swap0 ..) (fun _ _ _ _ _ => det_swap1 ..)
    (fun _ _ _ _ _ => det_swap2 ..) h trivial

/-- The side of the neighbour. -/
theorem side_swap (vec : VId → Vec5 K) (a b c d : VId) (y : Vec5 K) : side vec (b, a, c, d) y = -side vec (a, b, c, d) y :=
  det_swap0 ..

theorem side_last (vec : VId → Vec5 K) (a b c d e : VId) : side vec (a, b, c, d) (vec e) = -side vec (a, b, c, e) (vec d) :=
  det_swap3 ..

variable [LinearOrder K] [IsStrictOrderedRing K]

/-- All vertices are beyond every tet, except its own. -/
structure Hull (m : Mesh P V T) (S : VId → Prop) (vec : VId → Vec5 K) : Prop where
  cons : Consistent m
  mem : ∀ w v, m.first w = some v → S v
  five : ∀ q : V4, ∃ v, S v ∧ v ∉ [q.1, q.2.1, q.2.2.1, q.2.2.2]
  pos : ∀ w q v, m.tet4 w = some q → S v → v ∉ [q.1, q.2.1, q.2.2.1, q.2.2.2] → 0 < side vec q (vec v)

section
variable {m : Mesh P V T} {S : VId → Prop} {vec : VId → Vec5 K}

theorem tet4_first {w : Walker} {q : V4} (h : m.tet4 w = some q) : m.first w = some q.1 := (tet4_parts (a := q.1) (b := q.2.1) (c := q.2.2.1) (d := q.2.2.2) h).1

/-- The twelve ways to write a tet, as far as needed. -/
theorem tet4_turns {w : Walker} {a b c d : VId} (h : m.tet4 w = some (a, b, c, d)) :
    m.tet4 w.nve = some (a, c, d, b) ∧ m.tet4 w.pve = some (a, d, b, c) ∧ m.tet4 w.twin = some (b, a, d, c) ∧
    m.tet4 w.opp = some (c, d, a, b) ∧ m.tet4 w.nfe = some (b, c, a, d) ∧ m.tet4 w.pfe = some (c, a, b, d) := by
  obtain ⟨h1, h2, h3, h4, h5, h6⟩ := walker_moves w
  rw [h1, h2, h3, h4, h5, h6]
  exact ⟨tet4_perm h _, tet4_perm h _, tet4_perm h _, tet4_perm h _, tet4_perm h _, tet4_perm h _⟩

/-- Walkers on one tet show the same tet. -/
theorem tet4_same {w w' : Walker} (hww : w.tet = w'.tet) {q q' : V4} (hw : m.tet4 w = some q) (hw' : m.tet4 w' = some q') :
    SameTet q q' := by
  obtain ⟨t, h1, h2⟩ := Mesh.tet4_iff.1 hw
  obtain ⟨t', h3, h4⟩ := Mesh.tet4_iff.1 hw'
  rw [← hww, h1] at h3
  obtain rfl := Option.some.inj h3
  have e1 := t.rearr_tet w.edge
  have e2 := t.rearr_tet w'.edge
  rw [h2] at e1
  rw [h4] at e2
  exact EvenRearr.trans (EvenRearr.symm e1) e2

theorem turns_tet (w : Walker) : w.nve.tet = w.tet ∧ w.pve.tet = w.tet ∧ w.twin.tet = w.tet ∧ w.opp.tet = w.tet ∧
    w.nfe.tet = w.tet ∧ w.pfe.tet = w.tet := ⟨rfl, rfl, rfl, rfl, rfl, rfl⟩

theorem mem_vertices (hm : Consistent m) (hS : ∀ w v, m.first w = some v → S v) {w : Walker} {q : V4} (h : m.tet4 w = some q) :
    S q.1 ∧ S q.2.1 ∧ S q.2.2.1 ∧ S q.2.2.2 := by
  obtain ⟨a, b, c, d⟩ := q
  obtain ⟨-, -, h3, h4, -⟩ := tet4_turns h
  exact ⟨hS _ _ (tet4_first h), hS _ _ (tet4_first h3), hS _ _ (tet4_first h4), hS _ _ (tet4_first (tet4_turns h4).2.2.1)⟩

/-- The neighbour across the current triangle. -/
theorem toAcross (hm : Consistent m) {w : Walker} {a b c d : VId} (h : m.tet4 w = some (a, b, c, d)) :
    ∃ w' z, m.toAdj w = some w' ∧ m.toAdj w' = some w ∧ m.tet4 w' = some (b, a, c, z) := by
  obtain ⟨w', a', b', c', h1, h2, h3, h4⟩ := hm.adjacent w (live_iff.2 ⟨_, _, _, _, h⟩)
  rw [(tet4_parts h).2.2.2] at h3
  cases h3
  obtain ⟨z, hz⟩ := tri_tet4 h4
  exact ⟨w', z, h1, h2, hz⟩

theorem Hull.nonneg (H : Hull m S vec) {w : Walker} {q : V4} (h : m.tet4 w = some q) {v : VId} (hv : S v) : 0 ≤ side vec q (vec v) := by
  by_cases hq : v ∈ [q.1, q.2.1, q.2.2.1, q.2.2.2]
  · rw [side_zero vec hq]
  · exact (H.pos w q v h hv hq).le

/-- The opposite vertices of neighbours are different. -/
theorem Hull.apex_ne (H : Hull m S vec) {w w' : Walker} {a b c d z : VId} (h : m.tet4 w = some (a, b, c, d))
    (h' : m.tet4 w' = some (b, a, c, z)) : z ≠ d := by
  rintro rfl
  obtain ⟨v, h1, h2⟩ := H.five (a, b, c, z)
  have e1 := H.pos w _ v h h1 h2
  have e2 := H.pos w' _ v h' h1 (by
    simp only [List.mem_cons, List.not_mem_nil, or_false, not_or] at h2 ⊢
    tauto)
  rw [side_swap] at e2
  linarith

theorem Hull.apex_pos (H : Hull m S vec) {w w' : Walker} {a b c d z : VId} (h : m.tet4 w = some (a, b, c, d))
    (h' : m.tet4 w' = some (b, a, c, z)) : 0 < side vec (b, a, c, z) (vec d) ∧ 0 < side vec (a, b, c, d) (vec z) := by
  have hz := H.apex_ne h h'
  have n1 := H.cons.distinct _ _ _ _ _ h
  have n2 := H.cons.distinct _ _ _ _ _ h'
  simp only [List.nodup_cons, List.mem_cons, List.not_mem_nil, or_false, not_or, not_false_eq_true, List.nodup_nil,
    and_true] at n1 n2
  refine ⟨H.pos w' _ d h' (mem_vertices H.cons H.mem h).2.2.2 ?_, H.pos w _ z h (mem_vertices H.cons H.mem h').2.2.2 ?_⟩ <;>
    simp only [List.mem_cons, List.not_mem_nil, or_false, not_or]
  · exact ⟨Ne.symm n1.2.1.2, Ne.symm n1.1.2.2, Ne.symm n1.2.2, Ne.symm hz⟩
  · exact ⟨Ne.symm n2.2.1.2, Ne.symm n2.1.2.2, Ne.symm n2.2.2, hz⟩

/-- The coefficient of the opposite vertex has the sign of the side of the neighbour. -/
theorem Hull.coef (H : Hull m S vec) {w w' : Walker} {a b c d z : VId} (h : m.tet4 w = some (a, b, c, d))
    (h' : m.tet4 w' = some (b, a, c, z)) {ka kb kc kd : K} {y : Vec5 K}
    (hy : y = ka • vec a + kb • vec b + kc • vec c + kd • vec d) (h0 : 0 ≤ side vec (b, a, c, z) y) : 0 ≤ kd := by
  obtain ⟨hp, -⟩ := H.apex_pos h h'
  rw [hy, side_add, side_add, side_add, side_smul, side_smul, side_smul, side_smul,
    side_zero vec (v := a) (by simp), side_zero vec (v := b) (by simp), side_zero vec (v := c) (by simp)] at h0
  by_contra hk
  have := mul_neg_of_neg_of_pos (not_le.1 hk) hp
  linarith

/-- A vector in the hyperplane of a tet is a combination of its vertices. -/
theorem Hull.inPlane (H : Hull m S vec) {w : Walker} {a b c d : VId} (h : m.tet4 w = some (a, b, c, d)) {y : Vec5 K}
    (hy : side vec (a, b, c, d) y = 0) : ∃ ka kb kc kd : K, y = ka • vec a + kb • vec b + kc • vec c + kd • vec d := by
  obtain ⟨v, h1, h2⟩ := H.five (a, b, c, d)
  have hv := H.pos w _ v h h1 h2
  obtain ⟨ka, kb, kc, kd, ke, he⟩ := basis (ne_of_gt hv) y
  refine ⟨ka, kb, kc, kd, ?_⟩
  rw [he, side_add, side_add, side_add, side_add, side_smul, side_smul, side_smul, side_smul, side_smul,
    side_zero vec (v := a) (by simp), side_zero vec (v := b) (by simp), side_zero vec (v := c) (by simp),
    side_zero vec (v := d) (by simp)] at hy
  have : ke = 0 := by
    have hy : ke = 0 ∨ side vec (a, b, c, d) (vec v) = 0 := by simpa using hy
    rcases hy with h | h
    · exact h
    · exact absurd h hv.ne'
  rw [he, this, zero_smul, add_zero]

/-- The least quotient. -/
theorem ratio {α : Type} {s : Set α} (hs : s.Finite) (f g : α → K) (hg : ∀ k ∈ s, 0 ≤ g k) (hpos : ∃ k ∈ s, 0 < g k)
    (hf : ∀ k ∈ s, 0 ≤ f k) : ∃ k ∈ s, 0 < g k ∧ 0 ≤ f k / g k ∧ ∀ l ∈ s, 0 ≤ f l - f k / g k * g l := by
  classical
  obtain ⟨k0, h0, hk0⟩ := hpos
  obtain ⟨k, hk, hmin⟩ := (hs.toFinset.filter fun k => 0 < g k).exists_min_image (fun k => f k / g k)
    ⟨k0, by simp [h0, hk0]⟩
  simp only [Finset.mem_filter, Set.Finite.mem_toFinset] at hk hmin
  refine ⟨k, hk.1, hk.2, div_nonneg (hf k hk.1) hk.2.le, fun l hl => ?_⟩
  rcases (hg l hl).eq_or_lt with h | h
  · rw [← h, mul_zero, sub_zero]; exact hf l hl
  · have := hmin l ⟨hl, h⟩
    rw [le_div_iff₀ h] at this
    linarith

/-- A vector beyond all tets at a vertex (as far as they are connected) is a combination of the vertex and its
neighbours, the latter with nonnegative coefficients. -/
theorem Hull.star_cone (H : Hull m S vec) {v : VId} {fam : TId → Prop} {w0 : Walker} (h0 : fam w0.tet)
    (hv0 : m.first w0 = some v) (hcl : ∀ w w', fam w.tet → m.first w = some v → m.toAdj w = some w' → fam w'.tet)
    {x : Vec5 K} (hx : ∀ w q, fam w.tet → m.tet4 w = some q → q.1 = v → 0 ≤ side vec q x) :
    ∃ u : Fin 4 → VId, ∃ k : Fin 4 → K, ∃ t : K, (∀ i, 0 ≤ k i) ∧
      (∀ i, ∃ y : Walker, fam y.tet ∧ m.edge y = some (v, u i)) ∧
      x = t • vec v + k 0 • vec (u 0) + k 1 • vec (u 1) + k 2 • vec (u 2) + k 3 • vec (u 3) := by
  have hm := H.cons
  -- a neighbour that is beyond a tet
  obtain ⟨w1, hw1, z, hz0, y0, hy0, hye⟩ : ∃ q1 : V4, (m.tet4 w0 = some q1 ∧ q1.1 = v) ∧ ∃ z, 0 < side vec q1 (vec z) ∧
      ∃ y : Walker, fam y.tet ∧ m.edge y = some (v, z) := by
    obtain ⟨t, ht⟩ : ∃ t, m.tets.get w0.tet = some t := by
      simp only [Mesh.first, Option.map_eq_some_iff] at hv0
      obtain ⟨t, ht, -⟩ := hv0
      exact ⟨t, ht⟩
    obtain ⟨a, b, c, d, hq⟩ := live_iff.1 (show Live m w0 by rw [Live, ht]; rfl)
    have ha := tet4_first hq
    rw [hv0] at ha
    cases ha
    obtain ⟨w', z, e1, e2, e3⟩ := toAcross hm hq
    have hfam := hcl _ _ h0 hv0 e1
    refine ⟨_, ⟨hq, rfl⟩, z, (H.apex_pos hq e3).2, w'.twin.nve, hfam, ?_⟩
    exact (tet4_parts (tet4_turns (tet4_turns e3).2.2.1).1).2.2.1
  obtain ⟨hw1, hw1v⟩ := hw1
  have hSz : S z := by
    obtain ⟨d, e, hd⟩ := edge_tet4 hye
    exact (mem_vertices hm H.mem hd).2.1
  let s : Set Walker := {w | fam w.tet ∧ ∃ q, m.tet4 w = some q ∧ q.1 = v}
  have hs : s.Finite := (live_finite m).subset fun w hw => by
    obtain ⟨-, q, hq, -⟩ := hw
    exact live_iff.2 ⟨_, _, _, _, hq⟩
  let Q : Walker → V4 := fun w => (m.tet4 w).getD (0, 0, 0, 0)
  have hQ : ∀ {w q}, m.tet4 w = some q → Q w = q := fun h => by simp only [Q, h, Option.getD_some]
  obtain ⟨k, ⟨hk1, q, hkq, hkv⟩, hk2, hk3, hk4⟩ := ratio hs (fun w => side vec (Q w) x) (fun w => side vec (Q w) (vec z))
    (by
      rintro w ⟨-, q, hq, -⟩
      rw [hQ hq]; exact H.nonneg hq hSz)
    ⟨w0, ⟨h0, _, hw1, hw1v⟩, by rw [hQ hw1]; exact hz0⟩
    (by
      rintro w ⟨h1, q, hq, h2⟩
      rw [hQ hq]; exact hx w q h1 hq h2)
  rw [hQ hkq] at hk2 hk3
  set r := side vec q x / side vec q (vec z) with hr
  have hk4' : ∀ w q', fam w.tet → m.tet4 w = some q' → q'.1 = v → 0 ≤ side vec q' (x + (-r) • vec z) := by
    intro w q' h1 h2 h3
    have := hk4 w ⟨h1, q', h2, h3⟩
    rw [hQ h2, hQ hkq, ← hr] at this
    rw [side_add, side_smul]
    linarith
  have hk0 : side vec q (x + (-r) • vec z) = 0 := by
    rw [side_add, side_smul, hr]
    field_simp
    ring
  obtain ⟨a, b, c, d⟩ := q
  obtain rfl : a = v := hkv
  obtain ⟨ka, kb, kc, kd, he⟩ := H.inPlane hkq hk0
  obtain ⟨t1, t2, -⟩ := tet4_turns hkq
  have hcoef : ∀ {w : Walker} {b c d : VId}, fam w.tet → m.tet4 w = some (a, b, c, d) → ∀ {kb kc kd : K},
      x + (-r) • vec z = ka • vec a + kb • vec b + kc • vec c + kd • vec d → 0 ≤ kd := by
    intro w b c d hw hq kb kc kd he
    obtain ⟨w', z', e1, e2, e3⟩ := toAcross hm hq
    refine H.coef hq e3 he ?_
    have e4 := (tet4_turns e3).2.2.1
    have := hk4' w'.twin _ (show fam w'.tet from hcl _ _ hw (tet4_first hq) e1) e4 rfl
    rwa [side_same vec (p := (a, b, z', c)) (q := (b, a, c, z'))
      (tet4_same (w := w'.twin) (w' := w') rfl e4 e3)]
  refine ⟨![b, c, d, z], ![kb, kc, kd, r], ka, ?_, ?_, ?_⟩
  · intro i
    match i with
    | 0 => exact show 0 ≤ kb from hcoef (w := k.nve) hk1 t1 (kb := kc) (kc := kd) (by rw [he]; abel)
    | 1 => exact show 0 ≤ kc from hcoef (w := k.pve) hk1 t2 (kb := kd) (kc := kb) (by rw [he]; abel)
    | 2 => exact hcoef hk1 hkq he
    | 3 => exact hk3
  · intro i
    match i with
    | 0 => exact ⟨k, hk1, (tet4_parts hkq).2.2.1⟩
    | 1 => exact ⟨k.nve, hk1, (tet4_parts t1).2.2.1⟩
    | 2 => exact ⟨k.pve, hk1, (tet4_parts t2).2.2.1⟩
    | 3 => exact ⟨y0, hy0, hye⟩
  · have : x = (x + (-r) • vec z) + r • vec z := by rw [neg_smul]; abel
    rw [this, he]
    rfl

end
end Tet
