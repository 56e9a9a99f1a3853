import Verif.Proofs.TriSteps
import Verif.Proofs.TriPlane

/-!
# The loop of recovering a triangle with Steiner points
-/

namespace Tet
open Spec Vec4

theorem mapM_from {α β : Type} {f : α → Option β} {l : List α} {r : List β} (h : l.mapM f = some r) {y : β} (hy : y ∈ r) : ∃ x ∈ l, f x = some y := by
  induction l generalizing r with
  | nil =>
    simp only [List.mapM_nil, Option.pure_def, Option.some.injEq] at h
    subst h
    cases hy
  | cons i l ih =>
    rw [List.mapM_cons, Option.bind_eq_bind] at h
    obtain ⟨z, h1, h⟩ := Option.bind_eq_some_iff.1 h
    rw [Option.bind_eq_bind] at h
    obtain ⟨r', h2, h⟩ := Option.bind_eq_some_iff.1 h
    cases h
    rcases List.mem_cons.1 hy with rfl | hy
    · exact ⟨i, List.mem_cons_self, h1⟩
    · obtain ⟨j, hj, h3⟩ := ih h2 hy
      exact ⟨j, List.mem_cons_of_mem _ hj, h3⟩

theorem findTest_some {α : Type} {test : α → Option Bool} : ∀ {l : List α} {a : α}, findTest test l = some (some a) → a ∈ l ∧ test a = some true
  | [], _, h => by simp [findTest] at h
  | b :: l, a, h => by
    rw [findTest, Option.bind_eq_bind] at h
    obtain ⟨t, h1, h⟩ := Option.bind_eq_some_iff.1 h
    cases t with
    | true =>
      simp only [if_true, Option.pure_def, Option.some.injEq] at h
      subst h
      exact ⟨List.mem_cons_self, h1⟩
    | false =>
      obtain ⟨h2, h3⟩ := findTest_some (l := l) (a := a) (by simpa using h)
      exact ⟨List.mem_cons_of_mem _ h2, h3⟩

variable {K V T C : Type} [Field K] [LinearOrder K] [IsStrictOrderedRing K] {m m1 m2 m3 : Mesh (Pt K) V T}

theorem at_same {v : VId} {p q : Pt K} (h : At m v p) (h' : At m v q) : p = q := by
  obtain ⟨-, x, h1, rfl⟩ := h
  obtain ⟨-, y, h2, rfl⟩ := h'
  rw [h1] at h2
  cases h2
  rfl

/-! ### Grown meshes -/

theorem Spec.Grown.not_mem {l : List VId} (h : Grown m m1 l) {v : VId} {x : Vertex (Pt K) V} (hv : m.vertices.get v = some x) : v ∉ l := by
  intro hl
  rw [h.fresh v hl] at hv
  cases hv

theorem Spec.Grown.at {l : List VId} (h : Grown m m1 l) {v : VId} {p : Pt K} (hv : At m v p) : At m1 v p := by
  obtain ⟨-, x, h1, -⟩ := id hv
  exact at_payload (h.others v (h.not_mem h1)) hv

theorem Spec.Grown.value {l : List VId} (h : Grown m m1 l) {v : VId} {x : V} (hv : ∃ y, m.vertices.get v = some y ∧ y.value = x) :
    ∃ y, m1.vertices.get v = some y ∧ y.value = x := by
  obtain ⟨y, h1, -⟩ := id hv
  exact value_payload (h.others v (h.not_mem h1)) hv

theorem Spec.Grown.trans {l l' : List VId} (h : Grown m m1 l) (h' : Grown m1 m2 l') : Grown m m2 (l ++ l') := by
  have hd : ∀ v ∈ l, v ∉ l' := by
    intro v hv hv'
    have := h.new v hv
    rw [h'.fresh v hv'] at this
    cases this
  refine ⟨?_, ?_, ?_, ?_, ?_, h'.center.trans h.center⟩
  · intro s hs
    rcases List.mem_append.1 hs with h1 | h1
    · exact h.fresh s h1
    · exact none_payload (h.others s fun h2 => hd s h2 h1) (h'.fresh s h1)
  · rw [List.nodup_append]
    exact ⟨h.nodup, h'.nodup, fun a ha b hb hab => hd a ha (hab ▸ hb)⟩
  · intro s hs
    rcases List.mem_append.1 hs with h1 | h1
    · have h2 := congrArg Option.isSome (h'.others s (hd s h1))
      simp only [Option.isSome_map] at h2
      rw [h2]
      exact h.new s h1
    · exact h'.new s h1
  · intro v hv
    rw [List.mem_append, not_or] at hv
    exact (h'.others v hv.2).trans (h.others v hv.1)
  · intro v
    rw [h'.inMesh, h.inMesh, List.mem_append]
    tauto

theorem Spec.Split.grown {g : EdgeOrTri} {s : VId} {p : Pt K} {x : V} (h : Split m m1 g s p x) : Grown m m1 [s] := by
  refine ⟨by simpa using h.fresh, by simp, ?_, ?_, ?_, h.center⟩
  · obtain ⟨y, hy, -⟩ := h.new.2
    simp [hy]
  · intro v hv
    exact h.others v (by simpa using hv)
  · intro v
    rw [h.inMesh, List.mem_singleton]

theorem Spec.Chained.grown {v0 v1 : VId} {p0 p1 : Pt K} {x : V} {l : List VId} (h : Chained m m1 v0 v1 p0 p1 x l) : Grown m m1 l := by
  refine ⟨h.fresh, h.nodup, ?_, h.others, h.inMesh, h.center⟩
  intro s hs
  obtain ⟨y, hy, -⟩ := h.value s hs
  simp [hy]

theorem grown_of_same (h : SameVertices m m1) (hi : ∀ v, InMesh m1 v ↔ InMesh m v) : Grown m m1 [] :=
  ⟨by simp, by simp, by simp, fun v _ => payload_of_same h v, fun v => by rw [hi]; simp, h.2.1⟩

/-! ### Closing sides -/

/-- The edge in the other direction. -/
abbrev rev2 (e : VId × VId) : VId × VId := (e.2, e.1)

theorem closeSide_ok {ops : CdtOps K C} (hc : IsCdt ops) {toCdt : VId → Option Nat} {s s' : C × List (VId × VId)} {f : VId × VId}
    (h : closeSide ops toCdt s f = some s') (hn : s.2.Nodup) : (∀ i, ops.vertex s'.1 i = ops.vertex s.1 i) ∧ s'.2.Nodup ∧
      ∀ x, x ∈ s'.2 ↔ (x ∈ s.2 ∧ x ≠ f) ∨ (f ∉ s.2 ∧ x = rev2 f) := by
  simp only [closeSide, Option.bind_eq_bind] at h
  obtain ⟨a, -, h⟩ := Option.bind_eq_some_iff.1 h
  obtain ⟨b, -, h⟩ := Option.bind_eq_some_iff.1 h
  split_ifs at h with h1 h2 h3 <;> cases h
  · refine ⟨fun i => hc.constraint .., hn.erase f, fun x => ?_⟩
    rw [hn.mem_erase_iff]
    tauto
  · refine ⟨fun i => hc.constraint .., hn, fun x => ?_⟩
    constructor
    · exact fun h => .inl ⟨h, fun e => h2 (e ▸ h)⟩
    · rintro (h | ⟨-, rfl⟩)
      · exact h.1
      · exact h3
  · refine ⟨fun i => hc.constraint .., List.nodup_cons.2 ⟨h3, hn⟩, fun x => ?_⟩
    rw [List.mem_cons]
    constructor
    · rintro (rfl | h)
      · exact .inr ⟨h2, rfl⟩
      · exact .inl ⟨h, fun e => h2 (e ▸ h)⟩
    · rintro (h | ⟨-, rfl⟩)
      · exact .inr h.1
      · exact .inl rfl

/-- Closing the three sides of a triangle. -/
theorem closeSides_ok {ops : CdtOps K C} (hc : IsCdt ops) {toCdt : VId → Option Nat} {s s' : C × List (VId × VId)} {a b c : VId}
    (h : [(a, b), (b, c), (c, a)].foldlM (closeSide ops toCdt) s = some s') (hn : s.2.Nodup) (hd : a ≠ b ∧ b ≠ c ∧ c ≠ a) :
    (∀ i, ops.vertex s'.1 i = ops.vertex s.1 i) ∧ s'.2.Nodup ∧
      ∀ x, x ∈ s'.2 ↔ (x ∈ s.2 ∧ x ∉ triEdges (a, b, c)) ∨ (rev2 x ∈ triEdges (a, b, c) ∧ rev2 x ∉ s.2) := by
  simp only [List.foldlM_cons, List.foldlM_nil, Option.bind_eq_bind] at h
  obtain ⟨s1, h1, h⟩ := Option.bind_eq_some_iff.1 h
  obtain ⟨s2, h2, h⟩ := Option.bind_eq_some_iff.1 h
  obtain ⟨s3, h3, h⟩ := Option.bind_eq_some_iff.1 h
  cases h
  obtain ⟨a1, a2, a3⟩ := closeSide_ok hc h1 hn
  obtain ⟨b1, b2, b3⟩ := closeSide_ok hc h2 a2
  obtain ⟨c1, c2, c3⟩ := closeSide_ok hc h3 b2
  obtain ⟨d1, d2, d3⟩ := hd
  refine ⟨fun i => (c1 i).trans ((b1 i).trans (a1 i)), c2, ?_⟩
  rintro ⟨x, y⟩
  simp only [c3, b3, a3, triEdges, rev2, List.mem_cons, List.not_mem_nil, or_false, Prod.mk.injEq, ne_eq]
  grind

end Tet
