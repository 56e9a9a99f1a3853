import Mathlib.Data.List.Chain
import Mathlib.Data.List.Nodup
import Mathlib.Logic.Function.Basic
import Verif.Model.IdMap

/-!
# Circular doubly linked lists threaded through id maps

The lists of a `Plc` all have the same form: the elements `0, …, n - 1` each belong to an owner
(`key`), every owner knows the first of its elements, and the elements of an owner are linked
circularly in the order of insertion.
-/

namespace Tet.Linked

/-- `b` follows `a`, seen from both. -/
def Joined (next prev : Nat → Option Nat) (a b : Nat) : Prop := next a = some b ∧ prev b = some a

/-- The list `l` is linked circularly, and its first element is `o`. -/
def Cyclic (next prev : Nat → Option Nat) (o : Nat) (l : List Nat) : Prop :=
  (l = [] ∧ o = idMax) ∨ ∃ t, l = o :: t ∧ List.IsChain (Joined next prev) (o :: t ++ [o])

/-- The list `l` is linked, without the links between the last and the first. -/
def Open (next prev : Nat → Option Nat) (o : Nat) (l : List Nat) : Prop :=
  (l = [] ∧ o = idMax) ∨ ∃ t, l = o :: t ∧ List.IsChain (Joined next prev) (o :: t)

theorem isChain_congr {R S : Nat → Nat → Prop} {l : List Nat}
    (h : ∀ a ∈ l.dropLast, ∀ b ∈ l.tail, R a b → S a b) (hl : List.IsChain R l) : List.IsChain S l := by
  induction l with
  | nil => exact .nil
  | cons a t ih =>
    cases t with
    | nil => exact .singleton _
    | cons b t =>
      rw [List.isChain_cons_cons] at hl ⊢
      refine ⟨h a (by simp) b (by simp) hl.1, ih ?_ hl.2⟩
      intro x hx y hy
      refine h x ?_ y ?_
      · simp only [List.dropLast_cons_cons]; exact List.mem_cons_of_mem _ hx
      · simp only [List.tail_cons] at hy ⊢; exact List.mem_cons_of_mem _ hy

theorem Cyclic.congr {next prev next' prev' : Nat → Option Nat} {o : Nat} {l : List Nat}
    (h : Cyclic next prev o l) (hn : ∀ a ∈ l, next' a = next a) (hp : ∀ a ∈ l, prev' a = prev a) :
    Cyclic next' prev' o l := by
  rcases h with h | ⟨t, rfl, h⟩
  · exact .inl h
  · refine .inr ⟨t, rfl, isChain_congr ?_ h⟩
    intro a ha b hb hab
    have ha' : a ∈ o :: t := by rwa [List.dropLast_concat] at ha
    have hb' : b ∈ o :: t := by simpa [or_comm] using hb
    exact ⟨(hn a ha').trans hab.1, (hp b hb').trans hab.2⟩

theorem Open.congr {next prev next' prev' : Nat → Option Nat} {o : Nat} {l : List Nat}
    (h : Open next prev o l) (hn : ∀ a ∈ l, next' a = next a) (hp : ∀ a ∈ l, prev' a = prev a) :
    Open next' prev' o l := by
  rcases h with h | ⟨t, rfl, h⟩
  · exact .inl h
  · refine .inr ⟨t, rfl, isChain_congr ?_ h⟩
    intro a ha b hb hab
    exact ⟨(hn a (List.dropLast_subset _ ha)).trans hab.1,
      (hp b (List.mem_of_mem_tail hb)).trans hab.2⟩

/-- The last element precedes the first. -/
theorem Cyclic.prev_first {next prev : Nat → Option Nat} {o : Nat} {t : List Nat}
    (h : List.IsChain (Joined next prev) (o :: t ++ [o])) :
    ∃ s q, o :: t = s ++ [q] ∧ prev o = some q := by
  obtain ⟨s, q, hs⟩ : ∃ s q, o :: t = s ++ [q] :=
    ⟨(o :: t).dropLast, (o :: t).getLast (by simp), (List.dropLast_append_getLast _).symm⟩
  refine ⟨s, q, hs, ?_⟩
  rw [hs, List.append_assoc, List.singleton_append, List.isChain_append_cons_cons] at h
  exact h.2.1.2

/-- Inserting a new last element into a circular list. -/
theorem Cyclic.append {next prev : Nat → Option Nat} {o q x : Nat} {l : List Nat}
    (h : Cyclic next prev o l) (hl : l ≠ []) (hnd : l.Nodup) (hx : x ∉ l) (hq : prev o = some q) :
    Cyclic (Function.update (Function.update next q (some x)) x (some o))
      (Function.update (Function.update prev o (some x)) x (some q)) o (l ++ [x]) := by
  rcases h with h | ⟨t, rfl, h⟩
  · exact absurd h.1 hl
  obtain ⟨s, q', hs, hq'⟩ := Cyclic.prev_first h
  obtain rfl : q' = q := by simpa [hq'] using hq
  refine .inr ⟨t ++ [x], by simp, ?_⟩
  have hqx : q' ≠ x := by
    rintro rfl
    exact hx (by rw [hs]; simp)
  have hox : o ≠ x := by
    rintro rfl
    exact hx (by simp)
  have e : o :: (t ++ [x]) ++ [o] = s ++ q' :: x :: [o] := by
    rw [← List.cons_append, hs]; simp
  rw [e, List.isChain_append_cons_cons, List.isChain_cons_cons]
  refine ⟨?_, ⟨by simp [hqx], by simp [hqx]⟩, ⟨by simp, by simp [hox]⟩, .singleton _⟩
  have h' : List.IsChain (Joined next prev) (s ++ [q']) := by
    rw [hs] at h
    exact h.left_of_append
  refine isChain_congr ?_ h'
  rw [← hs]
  intro a ha b hb hab
  have hax : a ≠ x := by rintro rfl; exact hx (List.dropLast_subset _ ha)
  have hbx : b ≠ x := by rintro rfl; exact hx (List.mem_of_mem_tail hb)
  have haq : a ≠ q' := by
    rintro rfl
    rw [hs] at ha hnd
    simp only [List.dropLast_concat] at ha
    exact (List.nodup_append.1 hnd).2.2 _ ha _ (by simp) rfl
  have hbo : b ≠ o := by
    rintro rfl
    simp only [List.tail_cons] at hb
    exact (List.nodup_cons.1 hnd).1 hb
  exact ⟨by simp [hax, haq, hab.1], by simp [hbx, hbo, hab.2]⟩

/-- A circular list of one element. -/
theorem Cyclic.single {next prev : Nat → Option Nat} {x : Nat} (hn : next x = some x)
    (hp : prev x = some x) : Cyclic next prev x [x] :=
  .inr ⟨[], rfl, by
    show List.IsChain _ [x, x]
    rw [List.isChain_cons_cons]
    exact ⟨⟨hn, hp⟩, .singleton _⟩⟩

/-- Inserting a new last element into an open list. -/
theorem Open.append {next prev : Nat → Option Nat} {o q x : Nat} {s : List Nat}
    (h : Open next prev o (s ++ [q])) (hnd : (s ++ [q]).Nodup) (hx : x ∉ s ++ [q]) :
    Open (Function.update next q (some x)) (Function.update prev x (some q)) o (s ++ [q] ++ [x]) := by
  rcases h with h | ⟨t, hs, h⟩
  · simp at h
  refine .inr ⟨t ++ [x], by rw [hs]; simp, ?_⟩
  have hqx : q ≠ x := by
    rintro rfl
    exact hx (by simp)
  rw [← List.cons_append, ← hs, List.append_assoc, List.singleton_append,
    List.isChain_append_cons_cons]
  rw [← hs] at h
  refine ⟨?_, ⟨by simp, by simp⟩, .singleton _⟩
  refine isChain_congr ?_ h
  intro a ha b hb hab
  have hbx : b ≠ x := by rintro rfl; exact hx (List.mem_of_mem_tail hb)
  have haq : a ≠ q := by
    rintro rfl
    simp only [List.dropLast_concat] at ha
    exact (List.nodup_append.1 hnd).2.2 _ ha _ (by simp) rfl
  exact ⟨by simp [haq, hab.1], by simp [hbx, hab.2]⟩

theorem Open.single (next prev : Nat → Option Nat) (x : Nat) : Open next prev x [x] :=
  .inr ⟨[], rfl, .singleton _⟩

theorem Open.first {next prev : Nat → Option Nat} {o : Nat} {s : List Nat} {q : Nat}
    (h : Open next prev o (s ++ [q])) : o ∈ s ++ [q] := by
  rcases h with h | ⟨t, hs, -⟩
  · simp at h
  · rw [hs]; simp

/-- Closing an open list. -/
theorem Open.close {next prev : Nat → Option Nat} {o q : Nat} {s : List Nat}
    (h : Open next prev o (s ++ [q])) (hnd : (s ++ [q]).Nodup) :
    Cyclic (Function.update next q (some o)) (Function.update prev o (some q)) o (s ++ [q]) := by
  rcases h with h | ⟨t, hs, h⟩
  · simp at h
  refine .inr ⟨t, hs, ?_⟩
  rw [← hs] at h
  rw [← hs, List.append_assoc, List.singleton_append, List.isChain_append_cons_cons]
  refine ⟨?_, ⟨by simp, by simp⟩, .singleton _⟩
  refine isChain_congr ?_ h
  intro a ha b hb hab
  have haq : a ≠ q := by
    rintro rfl
    simp only [List.dropLast_concat] at ha
    exact (List.nodup_append.1 hnd).2.2 _ ha _ (by simp) rfl
  have hbo : b ≠ o := by
    rintro rfl
    rw [hs, List.tail_cons] at hb
    rw [hs] at hnd
    exact (List.nodup_cons.1 hnd).1 hb
  exact ⟨by simp [haq, hab.1], by simp [hbo, hab.2]⟩

/-- A family of linked lists. -/
structure Layer where
  n : Nat
  key : Nat → Option Nat
  next : Nat → Option Nat
  prev : Nat → Option Nat
  first : Nat → Option Nat

namespace Layer

/-- The elements of an owner, in the order of insertion. -/
def mem (L : Layer) (k : Nat) : List Nat := (List.range L.n).filter fun i => L.key i = some k

/-- All lists are circular. -/
def Ok (L : Layer) : Prop := ∀ k o, L.first k = some o → Cyclic L.next L.prev o (L.mem k)

/-- All lists but that of `x` are circular. -/
def OkBut (L : Layer) (x : Nat) : Prop :=
  ∀ k o, k ≠ x → L.first k = some o → Cyclic L.next L.prev o (L.mem k)

theorem nodup_mem (L : Layer) (k : Nat) : (L.mem k).Nodup := List.nodup_range.filter _

theorem mem_mem {L : Layer} {k i : Nat} : i ∈ L.mem k ↔ i < L.n ∧ L.key i = some k := by
  simp [mem]

theorem lt_of_mem {L : Layer} {k i : Nat} (h : i ∈ L.mem k) : i < L.n := (mem_mem.1 h).1

/-- One more element. -/
theorem mem_succ {L L' : Layer} {k : Nat} (hn : L'.n = L.n + 1) (hk : L'.key L.n = some k)
    (hkey : ∀ i < L.n, L'.key i = L.key i) (j : Nat) :
    L'.mem j = L.mem j ++ if j = k then [L.n] else [] := by
  rw [mem, hn, List.range_succ, List.filter_append, mem]
  congr 1
  · exact List.filter_congr fun i hi => by rw [hkey i (List.mem_range.1 hi)]
  · by_cases h : j = k
    · simp [h, hk]
    · simp [h, hk, Ne.symm h]

theorem mem_congr {L L' : Layer} (hn : L'.n = L.n) {k : Nat}
    (hkey : ∀ i < L.n, L'.key i = some k ↔ L.key i = some k) : L'.mem k = L.mem k := by
  rw [mem, hn, mem]
  exact List.filter_congr fun i hi => by
    have := hkey i (List.mem_range.1 hi)
    simp [this]

/-- Appending the element `id` to the list of `k`: what the three closed insertions do to the
links. -/
def link (L : Layer) (k id : Nat) : Option Layer :=
  match L.first k with
  | none => none
  | some o =>
    if o = idMax then
      some { L with
        first := Function.update L.first k (some id)
        next := Function.update L.next id (some id)
        prev := Function.update L.prev id (some id) }
    else
      match L.prev o with
      | none => none
      | some q =>
        some { L with
          next := Function.update (Function.update L.next q (some id)) id (some o)
          prev := Function.update (Function.update L.prev o (some id)) id (some q) }

theorem link_empty {L : Layer} {k : Nat} (id : Nat) (h : L.first k = some idMax) :
    L.link k id = some { L with
        first := Function.update L.first k (some id)
        next := Function.update L.next id (some id)
        prev := Function.update L.prev id (some id) } := by
  simp [link, h]

theorem link_cons {L : Layer} {k o q : Nat} (id : Nat) (h : L.first k = some o) (ho : o ≠ idMax)
    (hq : L.prev o = some q) :
    L.link k id = some { L with
          next := Function.update (Function.update L.next q (some id)) id (some o)
          prev := Function.update (Function.update L.prev o (some id)) id (some q) } := by
  simp [link, h, ho, hq]

/-- The layer with one more element, not yet linked. -/
structure Grown (L L' : Layer) (k : Nat) : Prop where
  n : L'.n = L.n + 1
  new : L'.key L.n = some k
  key : ∀ i < L.n, L'.key i = L.key i
  next : ∀ i < L.n, L'.next i = L.next i
  prev : ∀ i < L.n, L'.prev i = L.prev i
  first : L'.first = L.first

theorem Ok.link {L L' : Layer} {k o : Nat} (h : L.Ok) (hg : L.Grown L' k) (hk : L.first k = some o)
    (hmax : L.n ≤ idMax) : ∃ L'', L'.link k L.n = some L'' ∧ L''.Ok ∧
      L''.n = L'.n ∧ L''.key = L'.key ∧ (∀ j, (L''.first j).isSome = (L'.first j).isSome) ∧
      L''.first k = some ((L.mem k).head?.getD L.n) ∧ ∀ j, j ≠ k → L''.first j = L.first j := by
  have hc := h k o hk
  have hfr : ∀ j o' (next' prev' : Nat → Option Nat), j ≠ k → L.first j = some o' →
      (∀ i < L.n, i ∉ L.mem k → next' i = L'.next i) →
      (∀ i < L.n, i ∉ L.mem k → prev' i = L'.prev i) → Cyclic next' prev' o' (L.mem j) := by
    intro j o' next' prev' hjk hj hn hp
    have hd : ∀ i ∈ L.mem j, i ∉ L.mem k := by
      intro i hi hi'
      rw [mem_mem] at hi hi'
      rw [hi.2] at hi'
      exact hjk (Option.some.inj hi'.2)
    refine (h j o' hj).congr ?_ ?_
    · intro i hi
      rw [hn i (lt_of_mem hi) (hd i hi), hg.next i (lt_of_mem hi)]
    · intro i hi
      rw [hp i (lt_of_mem hi) (hd i hi), hg.prev i (lt_of_mem hi)]
  have hms := mem_succ hg.n hg.new hg.key
  rcases hc with ⟨hnil, rfl⟩ | ⟨t, ht, hch⟩
  · refine ⟨_, link_empty L.n (by rw [hg.first, hk]), ?_, rfl, rfl, ?_, ?_, ?_⟩
    · intro j o' hj
      show Cyclic _ _ _ (L'.mem j)
      rw [hms]
      by_cases hjk : j = k
      · subst hjk
        simp only [Function.update_self, Option.some.injEq] at hj
        subst hj
        simp only [if_true, hnil, List.nil_append]
        exact Cyclic.single (by simp) (by simp)
      · simp only [Function.update_of_ne hjk, hg.first] at hj
        simp only [hjk, if_false, List.append_nil]
        refine hfr j o' _ _ hjk hj ?_ ?_ <;> intro i hi _ <;> simp [Nat.ne_of_lt hi]
    · intro j
      by_cases hjk : j = k
      · subst hjk; simp [hg.first, hk]
      · simp [hjk]
    · simp [hnil]
    · intro j hj; simp [hj, hg.first]
  · obtain ⟨s, q, hs, hq⟩ := Cyclic.prev_first hch
    have hon : o < L.n := lt_of_mem (k := k) (by rw [ht]; simp)
    have hqm : q ∈ L.mem k := by rw [ht, hs]; simp
    have hom : o ∈ L.mem k := by rw [ht]; simp
    have hne : o ≠ idMax := by omega
    have hq' : L'.prev o = some q := (hg.prev o hon).trans hq
    refine ⟨_, link_cons L.n (by rw [hg.first, hk]) hne hq', ?_, rfl, rfl, fun j => by rfl, ?_,
      fun j hj => by simp [hg.first]⟩
    · intro j o' hj
      show Cyclic _ _ _ (L'.mem j)
      rw [hms]
      simp only [hg.first] at hj
      by_cases hjk : j = k
      · subst hjk
        obtain rfl : o = o' := by simpa [hk] using hj
        simp only [if_true]
        have hcy : Cyclic L'.next L'.prev o (L.mem j) :=
          (h j o hk).congr (fun i hi => hg.next i (lt_of_mem hi)) (fun i hi => hg.prev i (lt_of_mem hi))
        exact hcy.append (by rw [ht]; simp) (L.nodup_mem j) (fun hx => lt_irrefl _ (lt_of_mem hx)) hq'
      · simp only [hjk, if_false, List.append_nil]
        refine hfr j o' _ _ hjk hj ?_ ?_
        · intro i hi hi'
          have : i ≠ q := by rintro rfl; exact hi' hqm
          simp [Nat.ne_of_lt hi, this]
        · intro i hi hi'
          have : i ≠ o := by rintro rfl; exact hi' hom
          simp [Nat.ne_of_lt hi, this]
    · show L'.first k = _
      rw [hg.first, hk, ht]
      rfl

end Layer
end Tet.Linked
