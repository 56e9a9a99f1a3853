import Verif.Proofs.Hull
import Verif.Spec.Cavity
import Mathlib.Algebra.Module.LinearMap.Defs

/-!
# The cavity of a new vertex in a mesh that is convex when lifted
-/

namespace Tet
open Spec Vec5
variable {P V T : Type} {K : Type} [Field K] [LinearOrder K] [IsStrictOrderedRing K]
variable {m : Mesh P V T} {S : VId → Prop} {vec : VId → Vec5 K}

/-- The tet is seen by `p`. -/
def Seen (m : Mesh P V T) (vec : VId → Vec5 K) (p : Vec5 K) (k : TId) : Prop :=
  ∃ w q, w.tet = k ∧ m.tet4 w = some q ∧ side vec q p < 0

theorem Seen.of {p : Vec5 K} {w : Walker} {q : V4} (h : Seen m vec p w.tet) (hq : m.tet4 w = some q) : side vec q p < 0 := by
  obtain ⟨w', q', h1, h2, h3⟩ := h
  rwa [side_same vec (tet4_same h1 h2 hq)]

/-- The walker of a directed edge of a tet. -/
theorem edgeAt {w : Walker} {a b c d : VId} (h : m.tet4 w = some (a, b, c, d)) {x y : VId} (hx : x ∈ [a, b, c, d])
    (hy : y ∈ [a, b, c, d]) (hne : x ≠ y) : ∃ w' c' d', w'.tet = w.tet ∧ m.tet4 w' = some (x, y, c', d') ∧
      ∀ v, v ∈ [a, b, c, d] ↔ v ∈ [x, y, c', d'] := by
  have key : ∀ {w : Walker} {a b c d : VId}, m.tet4 w = some (a, b, c, d) → ∀ y, y ∈ [b, c, d] →
      ∃ w' c' d', w'.tet = w.tet ∧ m.tet4 w' = some (a, y, c', d') ∧ ∀ v, v ∈ [a, b, c, d] ↔ v ∈ [a, y, c', d'] := by
    intro w a b c d h y hy
    obtain ⟨t1, t2, -⟩ := tet4_turns h
    simp only [List.mem_cons, List.not_mem_nil, or_false] at hy
    rcases hy with rfl | rfl | rfl
    · exact ⟨w, c, d, rfl, h, fun v => Iff.rfl⟩
    · exact ⟨w.nve, d, b, rfl, t1, fun v => by simp only [List.mem_cons, List.not_mem_nil, or_false]; tauto⟩
    · exact ⟨w.pve, b, c, rfl, t2, fun v => by simp only [List.mem_cons, List.not_mem_nil, or_false]; tauto⟩
  obtain ⟨-, -, t3, t4, -⟩ := tet4_turns h
  have t5 := (tet4_turns t4).2.2.1
  simp only [List.mem_cons, List.not_mem_nil, or_false] at hx hy
  rcases hx with rfl | rfl | rfl | rfl
  · exact key h y (by simp only [List.mem_cons, List.not_mem_nil, or_false]; tauto)
  · obtain ⟨w', c', d', e1, e2, e3⟩ := key t3 y (by simp only [List.mem_cons, List.not_mem_nil, or_false]; tauto)
    exact ⟨w', c', d', e1, e2, fun v => by rw [← e3]; simp only [List.mem_cons, List.not_mem_nil, or_false]; tauto⟩
  · obtain ⟨w', c', d', e1, e2, e3⟩ := key t4 y (by simp only [List.mem_cons, List.not_mem_nil, or_false]; tauto)
    exact ⟨w', c', d', e1, e2, fun v => by rw [← e3]; simp only [List.mem_cons, List.not_mem_nil, or_false]; tauto⟩
  · obtain ⟨w', c', d', e1, e2, e3⟩ := key t5 y (by simp only [List.mem_cons, List.not_mem_nil, or_false]; tauto)
    exact ⟨w', c', d', e1, e2, fun v => by rw [← e3]; simp only [List.mem_cons, List.not_mem_nil, or_false]; tauto⟩

/-- Tets with the same vertices are the same. -/
theorem Hull.unique (H : Hull m S vec) {w w' : Walker} {q : V4} {a b c d : VId} (h : m.tet4 w = some q)
    (h' : m.tet4 w' = some (a, b, c, d)) (hin : ∀ v ∈ [q.1, q.2.1, q.2.2.1, q.2.2.2], v ∈ [a, b, c, d]) : w.tet = w'.tet := by
  obtain ⟨a0, b0, c0, d0⟩ := q
  have n0 := H.cons.distinct _ _ _ _ _ h
  simp only [List.nodup_cons, List.mem_cons, List.not_mem_nil, or_false, not_or, not_false_eq_true, List.nodup_nil,
    and_true] at n0
  obtain ⟨x, c', d', e1, e2, e3⟩ := edgeAt h' (hin a0 (by simp)) (hin b0 (by simp)) n0.1.1
  have hc := (e3 c0).1 (hin c0 (by simp))
  have hd := (e3 d0).1 (hin d0 (by simp))
  simp only [List.mem_cons, List.not_mem_nil, or_false] at hc hd
  obtain ⟨⟨n1, n2, n3⟩, ⟨n4, n5⟩, n6⟩ := n0
  rcases hc with hc | hc | hc | hc
  · exact absurd hc.symm n2
  · exact absurd hc.symm n4
  · subst hc
    have t1 := (tet4_parts h).2.2.2
    have t2 := (tet4_parts e2).2.2.2
    rcases H.cons.triUnique _ _ _ _ t1 t2 (by left; rfl) with r | r | r <;> rw [← e1, r] <;> rfl
  · subst hc
    rcases hd with hd | hd | hd | hd
    · exact absurd hd.symm n3
    · exact absurd hd.symm n5
    · subst hd
      exact absurd rfl (H.apex_ne h (tet4_turns e2).2.2.1)
    · exact absurd hd.symm n6

/-- A vector in the hyperplane of a tet and beyond its neighbours is in its cone. -/
theorem Hull.inCone (H : Hull m S vec) {w : Walker} {a b c d : VId} (h : m.tet4 w = some (a, b, c, d)) {y : Vec5 K}
    (hy : side vec (a, b, c, d) y = 0)
    (hn : ∀ x x' q', x.tet = w.tet → m.toAdj x = some x' → m.tet4 x' = some q' → 0 ≤ side vec q' y) :
    ∃ ka kb kc kd : K, 0 ≤ ka ∧ 0 ≤ kb ∧ 0 ≤ kc ∧ 0 ≤ kd ∧ y = ka • vec a + kb • vec b + kc • vec c + kd • vec d := by
  obtain ⟨ka, kb, kc, kd, he⟩ := H.inPlane h hy
  have key : ∀ {x : Walker} {a b c d : VId} {ka kb kc kd : K}, x.tet = w.tet → m.tet4 x = some (a, b, c, d) →
      y = ka • vec a + kb • vec b + kc • vec c + kd • vec d → 0 ≤ kd := by
    intro x a b c d ka kb kc kd hx hq he
    obtain ⟨w', z', e1, e2, e3⟩ := toAcross H.cons hq
    exact H.coef hq e3 he (hn _ _ _ hx e1 e3)
  obtain ⟨t1, t2, t3, t4, -⟩ := tet4_turns h
  have t5 := (tet4_turns t3).1
  exact ⟨ka, kb, kc, kd, key (x := w.twin.nve) (ka := kb) (kb := kd) (kc := kc) rfl t5 (by rw [he]; abel),
    key (x := w.nve) (ka := ka) (kb := kc) (kc := kd) rfl t1 (by rw [he]; abel),
    key (x := w.pve) (ka := ka) (kb := kd) (kc := kb) rfl t2 (by rw [he]; abel), key rfl h he, he⟩

theorem least {α : Type} {s : Set α} (hs : s.Finite) (f : α → K) (h : ∃ k, k ∈ s) : ∃ k ∈ s, ∀ l ∈ s, f k ≤ f l := by
  classical
  obtain ⟨k0, h0⟩ := h
  obtain ⟨k, hk, hmin⟩ := hs.toFinset.exists_min_image f ⟨k0, by simpa using h0⟩
  simp only [Set.Finite.mem_toFinset] at hk hmin
  exact ⟨k, hk, hmin⟩

/-- The tets seen from one place are connected. -/
theorem Hull.connected (H : Hull m S vec) {p : Vec5 K} {k0 k : TId} (h0 : Seen m vec p k0) (hk : Seen m vec p k) :
    Reached m (Seen m vec p) [k0] k := by
  by_contra hno
  obtain ⟨w0, ⟨a0, b0, c0, d0⟩, rfl, hq0, hs0⟩ := h0
  obtain ⟨w1, q1, rfl, hq1, hs1⟩ := hk
  let Q : Walker → V4 := fun w => (m.tet4 w).getD (0, 0, 0, 0)
  have hQ : ∀ {w q}, m.tet4 w = some q → Q w = q := fun h => by simp only [Q, h, Option.getD_some]
  set y0 : Vec5 K := vec a0 + vec b0 + vec c0 + vec d0 with hy0
  have hS0 := mem_vertices H.cons H.mem hq0
  have hy0n : ∀ {w q}, m.tet4 w = some q → 0 ≤ side vec q y0 := by
    intro w q hq
    rw [hy0, side_add, side_add, side_add]
    have := H.nonneg hq hS0.1
    have := H.nonneg hq hS0.2.1
    have := H.nonneg hq hS0.2.2.1
    have := H.nonneg hq hS0.2.2.2
    simp only at *
    linarith
  let s : Set Walker := {w | (∃ q, m.tet4 w = some q) ∧ Seen m vec p w.tet ∧ ¬ Reached m (Seen m vec p) [w0.tet] w.tet}
  have hs : s.Finite := (live_finite m).subset fun w hw => by
    obtain ⟨⟨q, hq⟩, -⟩ := hw
    exact live_iff.2 ⟨_, _, _, _, hq⟩
  obtain ⟨w, ⟨⟨⟨a, b, c, d⟩, hq⟩, hseen, hnr⟩, hmin⟩ := least hs
    (fun w => side vec (Q w) y0 / (-side vec (Q w) p)) ⟨w1, ⟨q1, hq1⟩, ⟨w1, q1, rfl, hq1, hs1⟩, hno⟩
  have hp := hseen.of hq
  rw [hQ hq] at hmin
  set r := side vec (a, b, c, d) y0 / (-side vec (a, b, c, d) p) with hr
  have hr0 : 0 ≤ r := div_nonneg (hy0n hq) (by linarith)
  have hz : side vec (a, b, c, d) (y0 + r • p) = 0 := by
    rw [side_add, side_smul, hr]
    field_simp [hp.ne]
    ring
  by_cases hn : ∀ x x' q', x.tet = w.tet → m.toAdj x = some x' → m.tet4 x' = some q' → 0 ≤ side vec q' (y0 + r • p)
  · obtain ⟨ka, kb, kc, kd, i1, i2, i3, i4, he⟩ := H.inCone hq hz hn
    have hS := mem_vertices H.cons H.mem hq
    have : 0 ≤ side vec (a0, b0, c0, d0) (y0 + r • p) := by
      rw [he, side_add, side_add, side_add, side_smul, side_smul, side_smul, side_smul]
      have := mul_nonneg i1 (H.nonneg hq0 hS.1)
      have := mul_nonneg i2 (H.nonneg hq0 hS.2.1)
      have := mul_nonneg i3 (H.nonneg hq0 hS.2.2.1)
      have := mul_nonneg i4 (H.nonneg hq0 hS.2.2.2)
      simp only at *
      linarith
    rw [side_add, side_smul] at this
    have e0 : side vec (a0, b0, c0, d0) y0 = 0 := by
      rw [hy0, side_add, side_add, side_add, side_zero vec (v := a0) (by simp), side_zero vec (v := b0) (by simp),
        side_zero vec (v := c0) (by simp), side_zero vec (v := d0) (by simp)]
      simp
    rw [e0, zero_add] at this
    have hr1 : r = 0 := by
      by_contra hne
      have := mul_neg_of_pos_of_neg (lt_of_le_of_ne hr0 (Ne.symm hne)) hs0
      linarith
    rw [hr1, zero_smul, add_zero, hy0, side_add, side_add, side_add] at hz
    have z1 := H.nonneg hq hS0.1
    have z2 := H.nonneg hq hS0.2.1
    have z3 := H.nonneg hq hS0.2.2.1
    have z4 := H.nonneg hq hS0.2.2.2
    simp only at z1 z2 z3 z4
    have hin : ∀ v, S v → side vec (a, b, c, d) (vec v) = 0 → v ∈ [a, b, c, d] := by
      intro v hv h
      by_contra hnv
      exact absurd h (H.pos w _ v hq hv hnv).ne'
    have hu := H.unique (w := w0) (w' := w) hq0 hq (by
      intro v hv
      simp only [List.mem_cons, List.not_mem_nil, or_false] at hv
      rcases hv with rfl | rfl | rfl | rfl
      · exact hin _ hS0.1 (by linarith)
      · exact hin _ hS0.2.1 (by linarith)
      · exact hin _ hS0.2.2.1 (by linarith)
      · exact hin _ hS0.2.2.2 (by linarith))
    exact hnr (.start (by rw [hu]; simp))
  · push Not at hn
    obtain ⟨x, x', q', e1, e2, e3, e4⟩ := hn
    rw [side_add, side_smul] at e4
    have hy' := hy0n e3
    have hp' : side vec q' p < 0 := by
      by_contra hc
      have := mul_nonneg hr0 (not_lt.1 hc)
      linarith
    have hback : m.toAdj x' = some x := by
      obtain ⟨t, ht, -⟩ := Mesh.tet4_iff.1 hq
      obtain ⟨a', b', c', d', hx⟩ := live_iff.1 (show Live m x by rw [Live, e1, ht]; rfl)
      obtain ⟨w', z, f1, f2, -⟩ := toAcross H.cons hx
      rw [e2] at f1
      cases f1
      exact f2
    have hse : Seen m vec p x'.tet := ⟨x', q', rfl, e3, hp'⟩
    by_cases hre : Reached m (Seen m vec p) [w0.tet] x'.tet
    · exact hnr (e1 ▸ Reached.step hre hback (e1 ▸ hseen))
    · have := hmin x' ⟨⟨q', e3⟩, hse, hre⟩
      rw [hQ e3, le_div_iff₀ (by linarith)] at this
      linarith

/-- The situation when a vertex is inserted. -/
structure Cav (m : Mesh P V T) (S : VId → Prop) (vec : VId → Vec5 K) (id : VId) (E : List TId) : Prop where
  hull : Hull m S vec
  /-- the new vertex is on no sphere -/
  off : ∀ w q, m.tet4 w = some q → side vec q (vec id) ≠ 0
  mem : ∀ k, k ∈ E ↔ Seen m vec (vec id) k
  /-- every vertex is extreme -/
  extreme : ∀ v, S v → ∃ f : Vec5 K →ₗ[K] K, f (vec v) = 0 ∧ (∀ u, S u → u ≠ v → 0 < f (vec u)) ∧ 0 < f (vec id)

variable {id : VId} {E : List TId}

theorem Cav.live (C : Cav m S vec id E) {k : TId} (hk : k ∈ E) : (m.tets.get k).isSome := by
  obtain ⟨w, q, rfl, hq, -⟩ := (C.mem k).1 hk
  exact live_iff.2 ⟨_, _, _, _, hq⟩

/-- The new tets are convex, too. -/
theorem Cav.cone (C : Cav m S vec id E) {w : Walker} {a b c : VId} (hw : Outer m E w) (ht : m.tri w = some (a, b, c)) {v : VId}
    (hv : S v) (hn : v ∉ [a, b, c]) : 0 < side vec (a, b, c, id) (vec v) := by
  have H := C.hull
  obtain ⟨d, h⟩ := tri_tet4 ht
  obtain ⟨hE, w2, hadj, hE'⟩ := hw
  obtain ⟨w', z, e1, e2, h'⟩ := toAcross H.cons h
  rw [hadj] at e1
  cases e1
  have hp := ((C.mem _).1 hE).of h
  have hp' : 0 < side vec (b, a, c, z) (vec id) := by
    rcases lt_or_gt_of_ne (C.off _ _ h') with hlt | hgt
    · exact absurd ((C.mem w2.tet).2 ⟨w2, _, rfl, h', hlt⟩) hE'
    · exact hgt
  obtain ⟨-, hz⟩ := H.apex_pos h h'
  obtain ⟨ka, kb, kc, kd, ke, he⟩ := basis (ne_of_gt hz) (vec id)
  simp only at he
  have f1 : side vec (a, b, c, d) (vec id) = ke * side vec (a, b, c, d) (vec z) := by
    rw [he, side_add, side_add, side_add, side_add, side_smul, side_smul, side_smul, side_smul, side_smul,
      side_zero vec (v := a) (by simp), side_zero vec (v := b) (by simp), side_zero vec (v := c) (by simp),
      side_zero vec (v := d) (by simp)]
    ring
  have f2 : side vec (b, a, c, z) (vec id) = kd * side vec (a, b, c, d) (vec z) := by
    rw [he, side_add, side_add, side_add, side_add, side_smul, side_smul, side_smul, side_smul, side_smul,
      side_zero vec (v := a) (by simp), side_zero vec (v := b) (by simp), side_zero vec (v := c) (by simp),
      side_zero vec (v := z) (by simp), side_swap, side_last]
    ring
  have f3 : side vec (a, b, c, id) (vec v) = kd * side vec (a, b, c, d) (vec v) - ke * side vec (b, a, c, z) (vec v) := by
    rw [side_last, he, side_add, side_add, side_add, side_add, side_smul, side_smul, side_smul, side_smul, side_smul,
      side_zero vec (v := a) (by simp), side_zero vec (v := b) (by simp), side_zero vec (v := c) (by simp),
      side_last vec a b c v d, side_last vec a b c v z, side_swap vec a b c z]
    ring
  rw [f1] at hp
  rw [f2] at hp'
  have hkd : 0 < kd := pos_of_mul_pos_left hp' hz.le
  have hke : ke < 0 := by
    by_contra hc
    have := mul_nonneg (not_lt.1 hc) hz.le
    linarith
  rw [f3]
  have g1 := H.nonneg h hv
  have g2 := H.nonneg h' hv
  have m1 := mul_nonneg hkd.le g1
  have m2 := mul_nonneg (neg_nonneg.2 hke.le) g2
  simp only [List.mem_cons, List.not_mem_nil, or_false, not_or] at hn
  by_cases hvd : v = d
  · subst hvd
    have := mul_pos (neg_pos.2 hke) (H.apex_pos h h').1
    linarith
  · have := mul_pos hkd (H.pos _ _ v h hv (by simp only [List.mem_cons, List.not_mem_nil, or_false, not_or]; tauto))
    linarith

theorem Cav.cone_nonneg (C : Cav m S vec id E) {w : Walker} {a b c : VId} (hw : Outer m E w) (ht : m.tri w = some (a, b, c)) {v : VId}
    (hv : S v) : 0 ≤ side vec (a, b, c, id) (vec v) := by
  by_cases hn : v ∈ [a, b, c]
  · rw [side_zero vec (by simp only [List.mem_cons, List.not_mem_nil, or_false] at hn ⊢; tauto)]
  · exact (C.cone hw ht hv hn).le

theorem tri_ne (hm : Consistent m) {w : Walker} {a b c : VId} (ht : m.tri w = some (a, b, c)) : a ≠ b ∧ b ≠ c ∧ a ≠ c := by
  obtain ⟨d, h⟩ := tri_tet4 ht
  have n1 := hm.distinct _ _ _ _ _ h
  simp only [List.nodup_cons, List.mem_cons, List.not_mem_nil, or_false, not_or, not_false_eq_true, List.nodup_nil,
    and_true] at n1
  exact ⟨n1.1.1, n1.2.1.1, n1.1.2.1⟩

theorem tri_mem (C : Cav m S vec id E) {w : Walker} {a b c : VId} (ht : m.tri w = some (a, b, c)) : S a ∧ S b ∧ S c := by
  obtain ⟨d, h⟩ := tri_tet4 ht
  have := mem_vertices C.hull.cons C.hull.mem h
  exact ⟨this.1, this.2.1, this.2.2.1⟩

theorem edge_tri {w : Walker} {a b : VId} (h : m.edge w = some (a, b)) : ∃ c, m.tri w = some (a, b, c) := by
  obtain ⟨c, d, h⟩ := edge_tet4 h
  exact ⟨c, (tet4_parts h).2.2.2⟩

theorem tri_edge {w : Walker} {a b c : VId} (h : m.tri w = some (a, b, c)) : m.edge w = some (a, b) := by
  obtain ⟨d, h⟩ := tri_tet4 h
  exact (tet4_parts h).2.2.1

theorem tri_pfe {w : Walker} {a b c : VId} (h : m.tri w = some (a, b, c)) : m.tri w.pfe = some (c, a, b) := by
  obtain ⟨d, h⟩ := tri_tet4 h
  exact (tet4_parts (tet4_turns h).2.2.2.2.2).2.2.2

theorem Cav.edges (C : Cav m S vec id E) {w w' : Walker} (hw : Outer m E w) (hw' : Outer m E w') (he : m.edge w = m.edge w') : w = w' := by
  have hm := C.hull.cons
  obtain ⟨t, ht⟩ := Option.isSome_iff_exists.1 (C.live hw.1)
  obtain ⟨a, b, c, d, hq⟩ := live_iff.1 (show Live m w by rw [Live, ht]; rfl)
  have t1 := (tet4_parts hq).2.2.2
  have e1 := (tet4_parts hq).2.2.1
  obtain ⟨c', t2⟩ := edge_tri (he ▸ e1)
  obtain ⟨n1, n2, n3⟩ := tri_ne hm t1
  obtain ⟨n4, n5, n6⟩ := tri_ne hm t2
  have hcc : c' = c := by
    by_contra hne
    have p1 := C.cone hw t1 (tri_mem C t2).2.2 (by
      simp only [List.mem_cons, List.not_mem_nil, or_false, not_or]; exact ⟨Ne.symm n6, Ne.symm n5, hne⟩)
    have p2 := C.cone hw' t2 (tri_mem C t1).2.2 (by
      simp only [List.mem_cons, List.not_mem_nil, or_false, not_or]; exact ⟨Ne.symm n3, Ne.symm n2, Ne.symm hne⟩)
    have : side vec (a, b, c', id) (vec c) = -side vec (a, b, c, id) (vec c') := by
      simp only [side]
      rw [det_swap2, det_swap3, det_swap2]
      ring
    linarith
  subst hcc
  rcases hm.triUnique _ _ _ _ t1 t2 (by left; rfl) with r | r | r
  · exact r.symm
  · subst r
    have := (tet4_parts (tet4_turns hq).2.2.2.2.1).2.2.1
    rw [tri_edge t2] at this
    cases this
    exact absurd rfl n1
  · subst r
    have := (tet4_parts (tet4_turns hq).2.2.2.2.2).2.2.1
    rw [tri_edge t2] at this
    cases this
    exact absurd rfl n3

/-- No vertex is swallowed. -/
theorem Cav.surface (C : Cav m S vec id E) {w : Walker} {v : VId} (hE : w.tet ∈ E) (hv : m.first w = some v) :
    ∃ w', Outer m E w' ∧ m.first w' = some v := by
  by_contra hno
  have H := C.hull
  obtain ⟨u, k, t, h1, h2, h3⟩ := H.star_cone (v := v) (fam := (· ∈ E)) hE hv (x := -vec id)
    (fun w w' hw hv ha => by
      by_contra hc
      exact hno ⟨w, ⟨hw, w', ha, hc⟩, hv⟩)
    (fun w q hw hq _ => by
      rw [side_neg]
      have := ((C.mem _).1 hw).of hq
      linarith)
  obtain ⟨f, f1, f2, f3⟩ := C.extreme v (H.mem _ _ hv)
  have hu : ∀ i, 0 ≤ k i * f (vec (u i)) := by
    intro i
    obtain ⟨y, -, hy⟩ := h2 i
    obtain ⟨c, d, hq⟩ := edge_tet4 hy
    have hn := H.cons.distinct _ _ _ _ _ hq
    have hne : u i ≠ v := by
      intro e
      rw [e] at hn
      simp at hn
    exact mul_nonneg (h1 i) (f2 _ (mem_vertices H.cons H.mem hq).2.1 hne).le
  have := congrArg f h3
  simp only [map_neg, map_add, map_smul, smul_eq_mul, f1, mul_zero] at this
  have := hu 0
  have := hu 1
  have := hu 2
  have := hu 3
  linarith

/-- Two outer triangles cannot have opposite orders. -/
theorem Cav.no_flip (C : Cav m S vec id E) {w w' : Walker} {a b c : VId} (hw : Outer m E w) (hw' : Outer m E w')
    (ht : m.tri w = some (a, b, c)) (ht' : m.tri w' = some (a, c, b)) : False := by
  obtain ⟨v, hv, hn⟩ := C.hull.five (a, b, c, a)
  simp only [List.mem_cons, List.not_mem_nil, or_false, not_or] at hn
  have h1 := C.cone hw ht hv (by simp only [List.mem_cons, List.not_mem_nil, or_false, not_or]; tauto)
  have h2 := C.cone hw' ht' hv (by simp only [List.mem_cons, List.not_mem_nil, or_false, not_or]; tauto)
  have : side vec (a, c, b, id) (vec v) = -side vec (a, b, c, id) (vec v) := det_swap1 ..
  linarith

theorem fan_outer {w x : Walker} (hw : Outer m E w) (hf : Fan m E w x) : Outer m E x := by
  cases hf with
  | refl => exact hw
  | step _ _ h _ => exact h

theorem fan_first {w x : Walker} {a : VId} (hw : m.first w = some a) (hf : Fan m E w x) : m.first x = some a := by
  induction hf with
  | refl => exact hw
  | step _ h1 _ h2 ih =>
    obtain ⟨d, h1⟩ := tri_tet4 h1
    obtain ⟨c, d', h2⟩ := edge_tet4 h2
    rw [(tet4_parts h1).1] at ih
    rw [(tet4_parts h2).1, ih]

/-- The next outer triangle around the first vertex. -/
theorem Cav.succ (C : Cav m S vec id E) {w x : Walker} {a b c : VId} (hw : Outer m E w) (hf : Fan m E w x)
    (ht : m.tri x = some (a, b, c)) : ∃ y c2, Fan m E w y ∧ Outer m E y ∧ m.tri y = some (a, c, c2) ∧ c2 ≠ b := by
  have hx := fan_outer hw hf
  obtain ⟨y, h1, h2⟩ := outer_mate C.hull.cons.toT (fun k hk => C.live hk) (hx.congr (w' := x.pfe) (fid_pfe x)) (tri_edge (tri_pfe ht))
  obtain ⟨c2, h3⟩ := edge_tri h2
  refine ⟨y, c2, hf.step ht h1 h2, h1, h3, ?_⟩
  rintro rfl
  exact C.no_flip hx h1 ht h3

/-- The previous outer triangle around the first vertex. -/
theorem Cav.pred (C : Cav m S vec id E) {w x : Walker} {a b c : VId} (hw : Outer m E w) (hf : Fan m E w x)
    (ht : m.tri x = some (a, b, c)) : ∃ y b0, Fan m E w y ∧ Outer m E y ∧ m.tri y = some (a, b0, b) ∧ b0 ≠ c := by
  classical
  let F := {y : Walker // Fan m E w y}
  have hfin : Finite F := Set.Finite.to_subtype ((live_finite m).subset fun y hy => C.live (fan_outer hw hy).1)
  have hfa := fan_first (a := a) (m := m) (E := E) (w := w) (x := x)
  have hxa : m.first w = some a := by
    obtain ⟨t, h0⟩ := Option.isSome_iff_exists.1 (C.live hw.1)
    obtain ⟨a', b', c', d', hq⟩ := live_iff.1 (show Live m w by rw [Live, h0]; rfl)
    have := fan_first (tet4_parts hq).1 hf
    obtain ⟨d, h⟩ := tri_tet4 ht
    rw [(tet4_parts h).1] at this
    cases this
    exact (tet4_parts hq).1
  have htri : ∀ y : F, ∃ b c, m.tri y.1 = some (a, b, c) := by
    intro y
    obtain ⟨t, h0⟩ := Option.isSome_iff_exists.1 (C.live (fan_outer hw y.2).1)
    obtain ⟨a', b', c', d', hq⟩ := live_iff.1 (show Live m y.1 by rw [Live, h0]; rfl)
    have := fan_first hxa y.2
    rw [(tet4_parts hq).1] at this
    cases this
    exact ⟨_, _, (tet4_parts hq).2.2.2⟩
  have hs : ∀ y : F, ∃ z : F, ∃ b c c2, m.tri y.1 = some (a, b, c) ∧ m.tri z.1 = some (a, c, c2) ∧ c2 ≠ b := by
    intro y
    obtain ⟨b, c, h⟩ := htri y
    obtain ⟨z, c2, h1, h2, h3, h4⟩ := C.succ hw y.2 h
    exact ⟨⟨z, h1⟩, b, c, c2, h, h3, h4⟩
  choose f hfs using hs
  have hinj : Function.Injective f := by
    intro y z he
    obtain ⟨b1, c1, e1, h1, h2, -⟩ := hfs y
    obtain ⟨b2, c2, e2, h3, h4, -⟩ := hfs z
    rw [he, h4] at h2
    cases h2
    have := C.edges ((fan_outer hw y.2).congr (w' := y.1.pfe) (fid_pfe y.1))
      ((fan_outer hw z.2).congr (w' := z.1.pfe) (fid_pfe z.1)) (by
      rw [tri_edge (tri_pfe h1), tri_edge (tri_pfe h3)])
    have h5 := congrArg Walker.nfe this
    have hp : ∀ w : Walker, w.pfe.nfe = w := fun w => by
      rcases w with ⟨k, e⟩
      simp only [Walker.pfe, Walker.nfe, Walker.mk.injEq, true_and]
      revert e
      decide
    rw [hp, hp] at h5
    exact Subtype.ext h5
  obtain ⟨y, hy⟩ := Finite.injective_iff_surjective.1 hinj ⟨x, hf⟩
  obtain ⟨b1, c1, e1, h1, h2, h3⟩ := hfs y
  rw [hy, ht] at h2
  cases h2
  exact ⟨y.1, b1, y.2, fan_outer hw y.2, h1, Ne.symm h3⟩

/-- The outer triangles at a vertex form one fan. -/
theorem Cav.fans (C : Cav m S vec id E) {w w' : Walker} (hw : Outer m E w) (hw' : Outer m E w') (hff : m.first w = m.first w') :
    Fan m E w w' := by
  by_contra hno
  have hm := C.hull.cons
  have htri : ∀ {y}, Outer m E y → ∃ a b c, m.tri y = some (a, b, c) ∧ m.first y = some a := by
    intro y hy
    obtain ⟨t, h0⟩ := Option.isSome_iff_exists.1 (C.live hy.1)
    obtain ⟨a', b', c', d', hq⟩ := live_iff.1 (show Live m y by rw [Live, h0]; rfl)
    exact ⟨_, _, _, (tet4_parts hq).2.2.2, (tet4_parts hq).1⟩
  obtain ⟨a, b, c, tw, fw⟩ := htri hw
  obtain ⟨a', e, g, tw', fw'⟩ := htri hw'
  rw [fw, fw'] at hff
  cases hff
  have htri' : ∀ {y}, Fan m E w y → ∃ b c, m.tri y = some (a, b, c) := by
    intro y hy
    obtain ⟨a', b, c, h1, h2⟩ := htri (fan_outer hw hy)
    rw [fan_first fw hy] at h2
    cases h2
    exact ⟨b, c, h1⟩
  let Q : Walker → V4 := fun w => ((m.tri w).map fun t => (t.1, t.2.1, t.2.2, id)).getD (0, 0, 0, 0)
  have hQ : ∀ {w a b c}, m.tri w = some (a, b, c) → Q w = (a, b, c, id) := fun h => by
    simp only [Q, h, Option.map_some, Option.getD_some]
  obtain ⟨Sa, Se, Sg⟩ := tri_mem C tw'
  obtain ⟨ne1, ne2, ne3⟩ := tri_ne hm tw'
  -- the sum of the two other vertices is inside of every triangle of the fan
  have hpos : ∀ {x b c}, Fan m E w x → m.tri x = some (a, b, c) → 0 < side vec (a, b, c, id) (vec e + vec g) := by
    intro x b c hx ht
    have hox := fan_outer hw hx
    rw [side_add]
    have h1 := C.cone_nonneg hox ht Se
    have h2 := C.cone_nonneg hox ht Sg
    by_cases he : e ∈ [a, b, c]
    · by_cases hg : g ∈ [a, b, c]
      · exfalso
        simp only [List.mem_cons, List.not_mem_nil, or_false] at he hg
        rcases he with he | he | he
        · exact ne1 he.symm
        · rcases hg with hg | hg | hg
          · exact ne3 hg.symm
          · exact ne2 (he.trans hg.symm)
          · subst he hg
            exact hno (C.edges hox hw' (by rw [tri_edge ht, tri_edge tw']) ▸ hx)
        · rcases hg with hg | hg | hg
          · exact ne3 hg.symm
          · subst he hg
            exact C.no_flip hox hw' ht tw'
          · exact ne2 (he.trans hg.symm)
      · have := C.cone hox ht Sg hg
        linarith
    · have := C.cone hox ht Se he
      linarith
  -- a vertex of the fan that is not in the other triangle
  obtain ⟨y, c2, y1, y2, y3, y4⟩ := C.succ hw .refl tw
  obtain ⟨z, c3, z1, z2, z3, z4⟩ := C.succ hw y1 y3
  obtain ⟨n1, n2, n3⟩ := tri_ne hm tw
  obtain ⟨n4, n5, n6⟩ := tri_ne hm y3
  obtain ⟨n7, n8, n9⟩ := tri_ne hm z3
  have hv : ∃ v, S v ∧ v ∉ [a, e, g] ∧ ∃ x ∈ {x | Fan m E w x}, 0 < side vec (Q x) (vec v) := by
    have hb := C.cone y2 y3 (tri_mem C tw).2.1 (by
      simp only [List.mem_cons, List.not_mem_nil, or_false, not_or]; exact ⟨Ne.symm n1, n2, Ne.symm y4⟩)
    have hc := C.cone z2 z3 (tri_mem C tw).2.2 (by
      simp only [List.mem_cons, List.not_mem_nil, or_false, not_or]; exact ⟨Ne.symm n3, n5, Ne.symm z4⟩)
    have hc2 := C.cone hw tw (tri_mem C y3).2.2 (by
      simp only [List.mem_cons, List.not_mem_nil, or_false, not_or]; exact ⟨Ne.symm n6, y4, Ne.symm n5⟩)
    by_cases k1 : b ∈ [a, e, g]
    · by_cases k2 : c ∈ [a, e, g]
      · refine ⟨c2, (tri_mem C y3).2.2, ?_, w, .refl, by rw [hQ tw]; exact hc2⟩
        simp only [List.mem_cons, List.not_mem_nil, or_false] at k1 k2 ⊢
        rintro (k3 | k3 | k3)
        · exact n6 k3.symm
        all_goals
          rcases k1 with k1 | k1 | k1
          · exact n1 k1.symm
          all_goals
            rcases k2 with k2 | k2 | k2
            · exact n3 k2.symm
            all_goals first
              | exact n2 (k1.trans k2.symm)
              | exact y4 (k3.trans k1.symm)
              | exact n5 (k2.trans k3.symm)
      · exact ⟨c, (tri_mem C tw).2.2, k2, z, z1, by rw [hQ z3]; exact hc⟩
    · exact ⟨b, (tri_mem C tw).2.1, k1, y, y1, by rw [hQ y3]; exact hb⟩
  obtain ⟨v, Sv, hvn, hvp⟩ := hv
  have hvT := C.cone hw' tw' Sv hvn
  -- the least multiple
  obtain ⟨x, hx, hg0, hr0, hall⟩ := ratio (s := {x | Fan m E w x})
    ((live_finite m).subset fun y hy => C.live (fan_outer hw hy).1) (fun x => side vec (Q x) (vec e + vec g))
    (fun x => side vec (Q x) (vec v)) (fun x hx => by
      obtain ⟨b, c, h⟩ := htri' hx
      simp only [hQ h]
      exact C.cone_nonneg (fan_outer hw hx) h Sv) hvp (fun x hx => by
      obtain ⟨b, c, h⟩ := htri' hx
      simp only [hQ h]
      exact (hpos hx h).le)
  obtain ⟨b1, c1, tx⟩ := htri' hx
  have hox := fan_outer hw hx
  have hrp : 0 < side vec (Q x) (vec e + vec g) / side vec (Q x) (vec v) := by
    refine div_pos ?_ hg0
    rw [hQ tx]
    exact hpos hx tx
  set r := side vec (Q x) (vec e + vec g) / side vec (Q x) (vec v) with hr
  have hz : side vec (a, b1, c1, id) (vec e + vec g + (-r) • vec v) = 0 := by
    rw [side_add, side_smul, hr, hQ tx]
    rw [hQ tx] at hg0
    field_simp [hg0.ne']
    ring
  obtain ⟨o, So, on⟩ := C.hull.five (a, b1, c1, a)
  simp only [List.mem_cons, List.not_mem_nil, or_false, not_or] at on
  have ho := C.cone hox tx So (by simp only [List.mem_cons, List.not_mem_nil, or_false, not_or]; tauto)
  obtain ⟨ka, kb, kc, kd, ke, he⟩ := basis (ne_of_gt ho) (vec e + vec g + (-r) • vec v)
  simp only at he
  have hke : ke = 0 := by
    rw [he, side_add, side_add, side_add, side_add, side_smul, side_smul, side_smul, side_smul, side_smul,
      side_zero vec (v := a) (by simp), side_zero vec (v := b1) (by simp), side_zero vec (v := c1) (by simp),
      side_zero vec (v := id) (by simp)] at hz
    simp only [mul_zero, zero_add] at hz
    rcases mul_eq_zero.1 hz with h | h
    · exact h
    · exact absurd h ho.ne'
  rw [hke, zero_smul, add_zero] at he
  obtain ⟨m1, m2, m3⟩ := tri_ne hm tx
  have hside : ∀ {x b c}, Fan m E w x → m.tri x = some (a, b, c) → 0 ≤ side vec (a, b, c, id) (vec e + vec g + (-r) • vec v) := by
    intro x b c hx ht
    have := hall x hx
    rw [hQ ht] at this
    rw [side_add vec _ (vec e + vec g), side_smul]
    linarith
  have hkb : 0 ≤ kb := by
    obtain ⟨s, c4, s1, s2, s3, s4⟩ := C.succ hw hx tx
    have h1 := hside s1 s3
    have h2 := C.cone s2 s3 (tri_mem C tx).2.1 (by
      simp only [List.mem_cons, List.not_mem_nil, or_false, not_or]; exact ⟨Ne.symm m1, m2, Ne.symm s4⟩)
    rw [he, side_add, side_add, side_add, side_smul, side_smul, side_smul, side_smul,
      side_zero vec (v := a) (by simp), side_zero vec (v := c1) (by simp), side_zero vec (v := id) (by simp)] at h1
    simp only [mul_zero, zero_add, add_zero] at h1
    exact nonneg_of_mul_nonneg_left h1 h2
  have hkc : 0 ≤ kc := by
    obtain ⟨s, b4, s1, s2, s3, s4⟩ := C.pred hw hx tx
    have h1 := hside s1 s3
    have h2 := C.cone s2 s3 (tri_mem C tx).2.2 (by
      simp only [List.mem_cons, List.not_mem_nil, or_false, not_or]; exact ⟨Ne.symm m3, Ne.symm s4, Ne.symm m2⟩)
    rw [he, side_add, side_add, side_add, side_smul, side_smul, side_smul, side_smul,
      side_zero vec (v := a) (by simp), side_zero vec (v := b1) (by simp), side_zero vec (v := id) (by simp)] at h1
    simp only [mul_zero, zero_add, add_zero] at h1
    exact nonneg_of_mul_nonneg_left h1 h2
  -- seen from the other triangle
  have h1 : side vec (a, e, g, id) (vec e + vec g + (-r) • vec v) = -(r * side vec (a, e, g, id) (vec v)) := by
    rw [side_add, side_add, side_smul, side_zero vec (v := e) (by simp), side_zero vec (v := g) (by simp)]
    ring
  have h2 : 0 ≤ side vec (a, e, g, id) (vec e + vec g + (-r) • vec v) := by
    rw [he, side_add, side_add, side_add, side_smul, side_smul, side_smul, side_smul,
      side_zero vec (v := a) (by simp), side_zero vec (v := id) (by simp)]
    have := mul_nonneg hkb (C.cone_nonneg hw' tw' (tri_mem C tx).2.1)
    have := mul_nonneg hkc (C.cone_nonneg hw' tw' (tri_mem C tx).2.2)
    linarith
  have := mul_pos hrp hvT
  linarith

/-- The cavity can be filled. -/
theorem Cav.fillable (C : Cav m S vec id E) : Fillable m E where
  live := fun _ hk => C.live hk
  edges := fun _ _ h1 h2 he => C.edges h1 h2 he
  fans := fun _ _ h1 h2 he => C.fans h1 h2 he
  surface := fun _ _ h1 h2 => C.surface h1 h2

end Tet
