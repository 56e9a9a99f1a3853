import Verif.Proofs.ProgressMain
import Verif.Props.FlipLaws

/-!
# A way to go through all meshes that can be reached by flips

For the examples: if all flips to positively oriented tets lead from one of finitely many lists of tets to another,
then no mesh that can be reached is stuck.
-/

namespace Tet
open Spec
variable {P V T : Type}

/-- The tet in its twelve orders. -/
def twelve : V4 → List V4
  | (a, b, c, d) => [(d, c, b, a), (c, d, a, b), (b, a, d, c), (a, b, c, d), (c, b, d, a), (d, a, c, b), (a, d, b, c),
    (b, c, a, d), (b, d, c, a), (a, c, d, b), (d, b, a, c), (c, a, b, d)]

theorem twelve_eq (q : V4) : twelve q = (List.finRange 12).map fun c : Code =>
    (quad q (perms c 0), quad q (perms c 1), quad q (perms c 2), quad q (perms c 3)) := rfl

theorem mem_twelve {p q : V4} : q ∈ twelve p ↔ SameTet p q := by
  rw [sameTet_iff, twelve_eq, List.mem_map]
  constructor
  · rintro ⟨c, -, rfl⟩
    exact ⟨c, rfl⟩
  · rintro ⟨c, rfl⟩
    exact ⟨c, List.mem_finRange c, rfl⟩

def full (A : List V4) : List V4 := A.flatMap twelve

theorem mem_full {A : List V4} {q : V4} : q ∈ full A ↔ ∃ t ∈ A, SameTet t q := by
  simp only [full, List.mem_flatMap, mem_twelve]

/-- Membership, in a form that is quick to compute. -/
def inFull (q : V4) (A : List V4) : Bool :=
  (full A).any fun t => Nat.beq t.1 q.1 && Nat.beq t.2.1 q.2.1 && Nat.beq t.2.2.1 q.2.2.1 && Nat.beq t.2.2.2 q.2.2.2

theorem inFull_iff {q : V4} {A : List V4} : inFull q A = true ↔ q ∈ full A := by
  rw [inFull, List.any_eq_true]
  constructor
  · rintro ⟨⟨a, b, c, d⟩, h1, h2⟩
    simp only [Bool.and_eq_true] at h2
    obtain ⟨a', b', c', d'⟩ := q
    simp only [Nat.beq_eq] at h2
    obtain ⟨⟨⟨rfl, rfl⟩, rfl⟩, rfl⟩ := h2
    exact h1
  · intro h
    exact ⟨q, h, by simp⟩

/-- The tets of the mesh are those of the list. -/
def Shows (m : Mesh P V T) (A : List V4) : Prop := ∀ q, HasTet m q ↔ q ∈ full A

def nextTets (A old new : List V4) : List V4 := A.filter (fun t => old.all fun p => t ∉ twelve p) ++ new

def sameTets (A B : List V4) : Bool := A.all (inFull · B) && B.all (inFull · A)

theorem sameTets_full {A B : List V4} (h : sameTets A B = true) (q : V4) : q ∈ full A ↔ q ∈ full B := by
  simp only [sameTets, Bool.and_eq_true, List.all_eq_true, inFull_iff] at h
  have key : ∀ {A B : List V4}, (∀ t ∈ A, t ∈ full B) → q ∈ full A → q ∈ full B := by
    intro A B h hq
    obtain ⟨t, h1, h2⟩ := mem_full.1 hq
    obtain ⟨t', h3, h4⟩ := mem_full.1 (h t h1)
    exact mem_full.2 ⟨t', h3, SameTet.trans' h4 h2⟩
  exact ⟨key h.1, key h.2⟩

theorem Shows.next {m m' : Mesh P V T} {A old new : List V4} (h : Shows m A) (hr : Replaces m m' old new) :
    Shows m' (nextTets A old new) := by
  intro q
  rw [hr.2 q, h q, mem_full, mem_full]
  simp only [nextTets, List.mem_append, List.mem_filter, List.all_eq_true, decide_eq_true_eq, mem_twelve]
  constructor
  · rintro (⟨⟨t, h1, h2⟩, h3⟩ | ⟨t, h1, h2⟩)
    · exact ⟨t, .inl ⟨h1, fun p hp hpt => h3 p hp (SameTet.trans' hpt h2)⟩, h2⟩
    · exact ⟨t, .inr h1, h2⟩
  · rintro ⟨t, ⟨h1, h3⟩ | h1, h2⟩
    · exact .inl ⟨⟨t, h1, h2⟩, fun p hp hpq => h3 p hp (SameTet.trans' hpq (SameTet.symm' h2))⟩
    · exact .inr ⟨t, h1, h2⟩

def leadsTo (states : List (List V4)) (A old new : List V4) : Bool := states.any (sameTets (nextTets A old new))

def ok23 (pos : V4 → Bool) (states : List (List V4)) (A : List V4) : Bool :=
  (full A).all fun (a, b, c, d) => (full A).all fun (b', a', c', e) =>
    !((Nat.beq b' b && Nat.beq a' a && Nat.beq c' c) && [(b, a, d, e), (a, c, d, e), (c, b, d, e)].all pos) ||
      (decide (d ≠ e) && (full A).all (fun t => !(Nat.beq t.1 d && Nat.beq t.2.1 e)) &&
        leadsTo states A [(a, b, c, d), (b, a, c, e)] [(b, a, d, e), (a, c, d, e), (c, b, d, e)])

def ok32 (pos : V4 → Bool) (states : List (List V4)) (A : List V4) : Bool :=
  (full A).all fun (x, y, c, d) => (full A).all fun (x1, y1, d1, e) =>
    !((Nat.beq x1 x && Nat.beq y1 y && Nat.beq d1 d) && [(d, c, e, x), (c, d, e, y)].all pos && inFull (x, y, e, c) A) ||
      ((full A).all (fun t => !(Nat.beq t.1 d && Nat.beq t.2.1 c && Nat.beq t.2.2.1 e)) &&
        leadsTo states A [(x, y, c, d), (x, y, d, e), (x, y, e, c)] [(d, c, e, x), (c, d, e, y)])

def ok44 (pos : V4 → Bool) (states : List (List V4)) (A : List V4) : Bool :=
  (full A).all fun (x, y, p, q) => (full A).all fun (x1, y1, q1, r) =>
    !((Nat.beq x1 x && Nat.beq y1 y && Nat.beq q1 q) && [(r, p, q, y), (r, p, x, q)].all pos) ||
      (full A).all fun (x2, y2, r2, s) =>
        !((Nat.beq x2 x && Nat.beq y2 y && Nat.beq r2 r) && [(r, p, q, y), (r, p, y, s), (r, p, s, x), (r, p, x, q)].all pos &&
          inFull (x, y, s, p) A) ||
          ((full A).all (fun t => !(Nat.beq t.1 p && Nat.beq t.2.1 r)) &&
            leadsTo states A [(x, y, p, q), (x, y, q, r), (x, y, r, s), (x, y, s, p)]
              [(r, p, q, y), (r, p, y, s), (r, p, s, x), (r, p, x, q)])

def okFlips (pos : V4 → Bool) (states : List (List V4)) : Bool :=
  states.all fun A => ok23 pos states A && ok32 pos states A && ok44 pos states A

theorem noEdge_of {m : Mesh P V T} (hm : ConsistentT m) {A : List V4} (hA : Shows m A) {d e : VId}
    (h : (full A).all (fun t => !(Nat.beq t.1 d && Nat.beq t.2.1 e)) = true) : ¬ HasEdge m d e := by
  intro he
  obtain ⟨p, q, ht⟩ := hm.hasEdge_tet.1 he
  rw [List.all_eq_true] at h
  have := h _ ((hA _).1 ht)
  simp at this

theorem okFlips_at {pos : V4 → Bool} {states : List (List V4)} (h : okFlips pos states = true) {m : Mesh P V T}
    (hm : ConsistentT m) {A : List V4} (hA : Shows m A) (hs : A ∈ states) {old new taken r} (hf : FlipAt m old new taken r)
    (hp : ∀ q ∈ new, pos q = true) : ¬ taken ∧ ∃ B ∈ states, sameTets (nextTets A old new) B = true := by
  have h := List.all_eq_true.1 h A hs
  rw [Bool.and_eq_true, Bool.and_eq_true] at h
  obtain ⟨⟨h23, h32⟩, h44⟩ := h
  cases hf with
  | @flip23 w o a b c d e tet adj beyond tri =>
    obtain ⟨o', ho, htri⟩ := hm.adj_tri (tet4_parts tet).2.2.2
    rw [adj] at ho
    cases ho
    obtain ⟨e', ho⟩ := tri_tet4 htri
    rw [(tet4_parts ho).2.1] at beyond
    cases beyond
    have := List.all_eq_true.1 (List.all_eq_true.1 h23 (a, b, c, d) ((hA _).1 ⟨w, tet⟩)) (b, a, c, e) ((hA _).1 ⟨o, ho⟩)
    simp only [Bool.or_eq_true, Bool.not_eq_true', Bool.and_eq_true, decide_eq_true_eq] at this
    rcases this with h | ⟨⟨h1, h2⟩, h3⟩
    · rw [List.all_eq_true.2 hp] at h
      simp at h
    · exact ⟨not_or.2 ⟨h1, noEdge_of hm hA h2⟩, List.any_eq_true.1 h3⟩
  | @flip32 w o1 o2 x y c d e tet s1 s2 s3 third edge tris =>
    obtain ⟨e', k1⟩ := hm.ring_tet4 tet s1
    rw [(tet4_parts k1).2.1] at third
    cases third
    obtain ⟨f, k2⟩ := hm.ring_tet4 k1 s2
    obtain ⟨g, k3⟩ := hm.ring_tet4 k2 s3
    rw [tet] at k3
    cases k3
    have := List.all_eq_true.1 (List.all_eq_true.1 h32 (x, y, c, d) ((hA _).1 ⟨w, tet⟩)) (x, y, d, e) ((hA _).1 ⟨o1, k1⟩)
    simp only [Bool.or_eq_true, Bool.not_eq_true', Bool.and_eq_true] at this
    rcases this with h | ⟨h2, h3⟩
    · rw [List.all_eq_true.2 hp, inFull_iff.2 ((hA _).1 ⟨o2, k2⟩)] at h
      simp at h
    · refine ⟨fun ht => ?_, List.any_eq_true.1 h3⟩
      obtain ⟨z, hz⟩ := hasTri_iff.1 ht
      have := List.all_eq_true.1 h2 _ ((hA _).1 hz)
      simp at this
  | @flip44 w a1 a2 a3 x y p q r s tet s1 s2 s3 s4 ne third fourth edge tris =>
    obtain ⟨r', k1⟩ := hm.ring_tet4 tet s1
    rw [(tet4_parts k1).2.1] at third
    cases third
    obtain ⟨s', k2⟩ := hm.ring_tet4 k1 s2
    rw [(tet4_parts k2).2.1] at fourth
    cases fourth
    obtain ⟨f, k3⟩ := hm.ring_tet4 k2 s3
    obtain ⟨g, k4⟩ := hm.ring_tet4 k3 s4
    rw [tet] at k4
    cases k4
    have := List.all_eq_true.1 (List.all_eq_true.1 h44 (x, y, p, q) ((hA _).1 ⟨w, tet⟩)) (x, y, q, r) ((hA _).1 ⟨a1, k1⟩)
    simp only [Bool.or_eq_true, Bool.not_eq_true', Bool.and_eq_true] at this
    rcases this with h | h
    · have hp2 : ([(r, p, q, y), (r, p, x, q)] : List V4).all pos = true :=
        List.all_eq_true.2 fun t ht => hp t (by
          simp only [List.mem_cons, List.not_mem_nil, or_false] at ht ⊢
          tauto)
      rw [hp2] at h
      simp at h
    · have := List.all_eq_true.1 h (x, y, r, s) ((hA _).1 ⟨a2, k2⟩)
      simp only [Bool.or_eq_true, Bool.not_eq_true', Bool.and_eq_true] at this
      rcases this with h | ⟨h2, h3⟩
      · rw [List.all_eq_true.2 hp, inFull_iff.2 ((hA _).1 ⟨a3, k3⟩)] at h
        simp at h
      · exact ⟨noEdge_of hm hA h2, List.any_eq_true.1 h3⟩

theorem keys_nodup {α : Type} (m : IdMap α) : m.keys.Nodup := by
  rw [IdMapSpec.keys_eq]
  exact List.Nodup.filter _ List.nodup_range

/-- The sizes of the mesh are bounded by the list. -/
theorem Shows.room {m : Mesh P V T} (hm : ConsistentT m) {A : List V4} (hA : Shows m A) (hl : 12 * A.length < idMax) :
    Room m := by
  have hlen : (full A).length = 12 * A.length := by
    simp [full, twelve_eq, List.length_flatMap]
    omega
  have hT : m.tets.size ≤ (full A).length := by
    rw [← IdMap.keys_length]
    have hsome : ∀ k ∈ m.tets.keys, ∃ t, m.tets.get k = some t := fun k hk => Option.isSome_iff_exists.1 (IdMap.mem_keys.1 hk)
    let f : TId → V4 := fun k => ((m.tet4 ⟨k, 0⟩).getD (0, 0, 0, 0))
    have hnd : (m.tets.keys.map f).Nodup := by
      refine List.Nodup.map_on ?_ (keys_nodup _)
      intro k hk k' hk' he
      obtain ⟨t, ht⟩ := hsome k hk
      obtain ⟨t', ht'⟩ := hsome k' hk'
      have h1 : m.tet4 ⟨k, 0⟩ = some (t.tet 0) := by simp [Mesh.tet4, ht]
      have h2 : m.tet4 ⟨k', 0⟩ = some (t'.tet 0) := by simp [Mesh.tet4, ht']
      simp only [f, h1, h2, Option.getD_some] at he
      rw [he] at h1
      have := hm.tri_eq (tet4_parts h1).2.2.2 (tet4_parts h2).2.2.2
      exact congrArg Walker.tet this
    have hsub : m.tets.keys.map f ⊆ full A := by
      intro q hq
      obtain ⟨k, hk, rfl⟩ := List.mem_map.1 hq
      obtain ⟨t, ht⟩ := hsome k hk
      refine (hA _).1 ⟨⟨k, 0⟩, ?_⟩
      simp [f, Mesh.tet4, ht]
    simpa using (List.subperm_of_subset hnd hsub).length_le
  have hE : m.edges.size ≤ (full A).length := by
    rw [← IdMap.keys_length]
    have hsome : ∀ k ∈ m.edges.keys, ∃ ue, m.edges.get k = some ue ∧ ∃ q ∈ full A, ue.vertices = sorted2 (q.1, q.2.1) := by
      intro k hk
      obtain ⟨ue, hu⟩ := Option.isSome_iff_exists.1 (IdMap.mem_keys.1 hk)
      obtain ⟨j, t, i, h1, h2⟩ := hm.eused k ue hu
      obtain ⟨ue', h3, h4⟩ := hm.eptr j t i h1
      rw [h2, hu] at h3
      cases h3
      exact ⟨ue, hu, t.tet i, (hA _).1 ⟨⟨j, i⟩, by simp [Mesh.tet4, h1]⟩, h4⟩
    let f : EId → VId × VId := fun k => ((m.edges.get k).map (·.vertices)).getD (0, 0)
    have hnd : (m.edges.keys.map f).Nodup := by
      refine List.Nodup.map_on ?_ (keys_nodup _)
      intro k hk k' hk' he
      obtain ⟨u, hu, -⟩ := hsome k hk
      obtain ⟨u', hu', -⟩ := hsome k' hk'
      simp only [f, hu, hu', Option.map_some, Option.getD_some] at he
      exact hm.eunique _ _ _ _ hu hu' he
    have hsub : m.edges.keys.map f ⊆ (full A).map fun q => sorted2 (q.1, q.2.1) := by
      intro q hq
      obtain ⟨k, hk, rfl⟩ := List.mem_map.1 hq
      obtain ⟨u, hu, q, hq, he⟩ := hsome k hk
      exact List.mem_map.2 ⟨q, hq, by simp [f, hu, he]⟩
    simpa using (List.subperm_of_subset hnd hsub).length_le
  exact ⟨_, _, numTets_of hm rfl, numEdges_of hm rfl, by omega, by omega⟩

/-- No mesh that can be reached is stuck. -/
theorem never_of_states {tests : ProgressTests P V T} {m : Mesh P V T} (hm : ConsistentT m) (hg : GoodOrient tests.pos m)
    (ho : Oriented tests.pos m) {states : List (List V4)} {A : List V4} (hA : Shows m A) (hs : A ∈ states)
    {pos : V4 → Bool} (hpos : ∀ q, tests.pos m q = true → pos q = true) (hok : okFlips pos states = true) (hl : ∀ A ∈ states, 12 * A.length < idMax) :
    ∀ m1, ProgressRun tests m m1 → ¬ ProgressStuck tests m1 := by
  have key : ∀ m0 m1, ProgressRun tests m0 m1 → ConsistentT m0 → GoodOrient tests.pos m0 → Oriented tests.pos m0 →
      SameVertices m m0 → (∃ A ∈ states, Shows m0 A) → ¬ ProgressStuck tests m1 := by
    intro m0 m1 hr
    induction hr with
    | refl m0 =>
      rintro hm0 - - hsv ⟨A, hs, hA⟩ (⟨old, new, ⟨taken, r, hf, ht⟩, hp⟩ | hroom)
      · exact (okFlips_at hok hm0 hA hs hf fun q hq =>
        hpos q ((hg.verts m0 hsv q).symm.trans (hp q hq))).1 ht
      · exact hroom (hA.room hm0 (hl A hs))
    | step hf _ ih =>
      rintro hm0 hg0 ho0 hsv ⟨A, hs, hA⟩
      obtain ⟨k1, k2, -, -, k5⟩ := progressFlip_fine hm0 hg0 ho0 hf
      refine ih k1 (hg0.of_same k2) k5 (SameVertices.trans' hsv k2) ?_
      obtain ⟨old, new, h1, h2, -⟩ := hf
      have hd := h1.done hm0
      obtain ⟨taken, ws, hf, -, -⟩ := h1
      obtain ⟨-, B, hB, hsame⟩ := okFlips_at hok hm0 hA hs hf fun q hq =>
        hpos q ((hg.verts _ hsv q).symm.trans (h2 q hq))
      exact ⟨B, hB, fun q => (hA.next hd.rep q).trans (sameTets_full hsame q)⟩
  exact fun m1 hr => key m m1 hr hm hg ho ⟨fun _ => rfl, rfl, rfl, rfl⟩ ⟨A, hs, hA⟩

/-- A check that the tets are those of the list. -/
theorem shows_of {m : Mesh P V T} {A : List V4} (h1 : (m.tets.keys.filterMap fun k => (m.tets.get k).map fun t =>
    (t.vertices 0, t.vertices 1, t.vertices 2, t.vertices 3)) = A) : Shows m A := by
  intro q
  have hv : ∀ t : Tet T, quad (t.vertices 0, t.vertices 1, t.vertices 2, t.vertices 3) = t.vertices := by
    intro t
    funext i
    fin_cases i <;> rfl
  rw [mem_full, ← h1, hasTet_iff]
  constructor
  · rintro ⟨k, t, ht, hr⟩
    refine ⟨_, List.mem_filterMap.2 ⟨k, IdMap.mem_keys.2 (by simp [ht]), by rw [ht]; rfl⟩, ?_⟩
    rw [SameTet, hv]
    exact hr
  · rintro ⟨p, hp, hs⟩
    obtain ⟨k, hk, he⟩ := List.mem_filterMap.1 hp
    obtain ⟨t, ht, rfl⟩ := Option.map_eq_some_iff.1 he
    rw [SameTet, hv] at hs
    exact ⟨k, t, ht, hs⟩

end Tet
