import Verif.Spec.IdMap
import Verif.Prelude

namespace Tet

namespace IdMap
variable {V : Type}

theorem get_def (m : IdMap V) (k : Nat) : m.get k = m.map.slots[k]?.join := rfl

/-- Well-formedness: the free list lists each hole exactly once. -/
structure WF (m : IdMap V) : Prop where
  nodup : m.free.Nodup
  mem_free : ∀ k, k ∈ m.free ↔ k < m.map.slots.length ∧ m.get k = none
  le_cap : m.map.slots.length ≤ m.map.cap
  le_max : m.map.slots.length ≤ idMax

/-- Number of live elements. -/
def size (m : IdMap V) : Nat := m.map.slots.countP Option.isSome

theorem lt_of_get {m : IdMap V} {k v} (h : m.get k = some v) : k < m.map.slots.length := by
  by_contra hk
  rw [get_def, List.getElem?_eq_none (by omega)] at h
  simp at h

theorem WF.lt_max {m : IdMap V} (hm : m.WF) {k v} (h : m.get k = some v) : k < idMax :=
  lt_of_lt_of_le (lt_of_get h) hm.le_max

theorem WF.get_max {m : IdMap V} (hm : m.WF) : m.get idMax = none := by
  cases h : m.get idMax with
  | none => rfl
  | some v => exact absurd (hm.lt_max h) (lt_irrefl _)

theorem WF.empty : (empty : IdMap V).WF := by
  constructor <;> simp [IdMap.empty, StableVec.empty, get_def]

theorem get_empty (k) : (empty : IdMap V).get k = none := by
  simp [IdMap.empty, StableVec.empty, get_def]

theorem countP_add_holes (l : List (Option V)) :
    l.countP Option.isSome + l.countP Option.isNone = l.length := by
  induction l with
  | nil => rfl
  | cons a l ih => cases a <;> simp <;> omega

theorem length_eq_countP_of_holes (l : List (Option V)) (f : List Nat) (hn : f.Nodup)
    (h : ∀ k, k ∈ f ↔ k < l.length ∧ l[k]?.join = none) :
    f.length = l.countP Option.isNone := by
  have hp : f.Perm ((List.range l.length).filter fun k => (l[k]?.join).isNone) := by
    apply (List.perm_ext_iff_of_nodup hn (List.Nodup.filter _ List.nodup_range)).2
    intro k; simp [h]
  rw [hp.length_eq]
  clear h hn hp f
  have : ∀ l : List (Option V), ((List.range l.length).filter fun k => (l[k]?.join).isNone).length
      = l.countP Option.isNone := by
    intro l
    induction l using List.reverseRecOn with
    | nil => rfl
    | append_singleton l a ih =>
      rw [List.length_append, List.length_singleton, List.range_succ, List.filter_append,
        List.length_append, List.countP_append, ← ih]
      congr 1
      · congr 1
        apply List.filter_congr
        intro k hk
        rw [List.mem_range] at hk
        rw [List.getElem?_append_left hk]
      · cases a <;> simp
  exact this l

theorem WF.free_length {m : IdMap V} (hm : m.WF) :
    m.size + m.free.length = m.map.slots.length := by
  rw [length_eq_countP_of_holes m.map.slots m.free hm.nodup hm.mem_free, size]
  exact countP_add_holes _

theorem WF.len_eq {m : IdMap V} (hm : m.WF) : m.len = some m.size := by
  have := hm.free_length
  unfold len
  rw [if_pos]
  · rfl
  · show m.size = m.map.slots.length - m.free.length
    omega

/-! ### slot writes -/

theorem get_set (s : List (Option V)) (c f) (k : Nat) (o : Option V) (hk : k < s.length) (j) :
    (⟨⟨s.set k o, c⟩, f⟩ : IdMap V).get j
      = if j = k then o else s[j]?.join := by
  rw [get_def]
  show (s.set k o)[j]?.join = _
  rw [List.getElem?_set]
  by_cases h : k = j
  · subst h; simp [hk]
  · simp [h, Ne.symm h]

theorem countP_set_some (s : List (Option V)) (k : Nat) (hk : k < s.length) (v : V) :
    (s.set k (some v)).countP Option.isSome + (if (s[k]?.join).isSome then 1 else 0)
      = s.countP Option.isSome + 1 := by
  induction s generalizing k with
  | nil => simp at hk
  | cons a s ih =>
    cases k with
    | zero => cases a <;> simp
    | succ k =>
      have := ih k (by simpa using hk)
      cases a <;> simp at this ⊢ <;> omega

theorem countP_set_none (s : List (Option V)) (k : Nat) (hk : k < s.length) :
    (s.set k none).countP Option.isSome + (if (s[k]?.join).isSome then 1 else 0)
      = s.countP Option.isSome := by
  induction s generalizing k with
  | nil => simp at hk
  | cons a s ih =>
    cases k with
    | zero => cases a <;> simp
    | succ k =>
      have := ih k (by simpa using hk)
      cases a <;> simp at this ⊢ <;> omega

/-! ### insert -/

theorem insert_some {m m' : IdMap V} {v : V} {k : Nat} (hm : m.WF)
    (h : m.insert v = some (m', k)) :
    m'.WF ∧ m.get k = none ∧ k < idMax ∧ (∀ j, m'.get j = if j = k then some v else m.get j) ∧
      m'.size = m.size + 1 := by
  unfold insert at h
  split at h
  · simp at h
  rename_i hroom
  unfold insertRaw at h
  split at h
  · rename_i key hkey
    have hmem : key ∈ m.free := List.mem_of_getLast? hkey
    obtain ⟨hlt, hnone⟩ := (hm.mem_free key).1 hmem
    have hcap : key < m.map.cap := lt_of_lt_of_le hlt hm.le_cap
    have hrep : key + 1 - m.map.slots.length = 0 := by omega
    simp only [StableVec.insert, if_pos hcap, hrep, List.replicate_zero, List.append_nil,
      Option.some.injEq, Prod.mk.injEq] at h
    obtain ⟨h1, h2⟩ := h
    subst h2
    have hg : ∀ j, m'.get j = if j = key then some v else m.get j := by
      intro j; rw [← h1, get_set _ _ _ _ _ hlt]; rfl
    have hfree : m.free = m.free.dropLast ++ [key] := by
      have := List.dropLast_append_getLast? key hkey
      exact this.symm
    have hnd := hm.nodup
    rw [hfree] at hnd
    have hslots : m'.map.slots.length = m.map.slots.length := by rw [← h1]; simp
    have hf : m'.free = m.free.dropLast := by rw [← h1]
    refine ⟨⟨?_, ?_, ?_, ?_⟩, hnone, lt_of_lt_of_le hlt hm.le_max, hg, ?_⟩
    · rw [hf]; exact hnd.sublist (List.sublist_append_left _ _)
    · intro j
      rw [hf, hslots, hg]
      have hj := hm.mem_free j
      rw [hfree] at hj
      rw [List.mem_append, List.mem_singleton] at hj
      by_cases hjk : j = key
      · subst hjk
        simp
        have := List.disjoint_of_nodup_append hnd
        intro hc
        exact this hc (List.mem_singleton.2 rfl)
      · simp only [hjk, or_false, if_false] at hj ⊢
        exact hj
    · rw [hslots, ← h1]; exact hm.le_cap
    · rw [hslots]; exact hm.le_max
    · rw [← h1]
      have := countP_set_some m.map.slots key hlt v
      rw [← get_def, hnone] at this
      simpa [size] using this
  · rename_i hfree
    have hfree : m.free = [] := by
      cases hf : m.free with
      | nil => rfl
      | cons a l => rw [hf] at hfree; simp at hfree
    have hlt : m.map.slots.length < idMax := by
      by_contra hc
      exact hroom ⟨hfree, by simpa [StableVec.nextPushIndex] using hc⟩
    have hlt' : m.map.slots.length < 2 ^ 32 := by
      have : idMax < 2 ^ 32 := by decide
      omega
    simp only [StableVec.push, Option.some.injEq, Prod.mk.injEq] at h
    rw [Nat.mod_eq_of_lt hlt'] at h
    obtain ⟨h1, h2⟩ := h
    subst h2
    have hg : ∀ j, m'.get j = if j = m.map.slots.length then some v else m.get j := by
      intro j
      rw [← h1, get_def, get_def]
      show (m.map.slots ++ [some v])[j]?.join = _
      rcases Nat.lt_trichotomy j m.map.slots.length with hj | hj | hj
      · rw [List.getElem?_append_left hj, if_neg (by omega)]
      · subst hj; simp
      · rw [List.getElem?_eq_none (by simp; omega), if_neg (by omega),
          List.getElem?_eq_none (by omega)]
    have hnone : m.get m.map.slots.length = none := by rw [get_def]; simp
    refine ⟨⟨?_, ?_, ?_, ?_⟩, hnone, hlt, hg, ?_⟩
    · rw [← h1]; exact hm.nodup
    · intro j
      have hj := hm.mem_free j
      have hl : m'.map.slots.length = m.map.slots.length + 1 := by rw [← h1]; simp
      have hf : m'.free = m.free := by rw [← h1]
      rw [hg, hf, hl, hj]
      by_cases hjk : j = m.map.slots.length
      · subst hjk; simp
      · simp only [hjk, if_false]
        constructor
        · rintro ⟨a, b⟩; exact ⟨by omega, b⟩
        · rintro ⟨a, b⟩; exact ⟨by omega, b⟩
    · rw [← h1]; simp
    · rw [← h1]; simp; omega
    · rw [← h1]; simp [size]

theorem insert_isSome {m : IdMap V} {v : V} (hm : m.WF) (hroom : m.size < idMax) :
    ∃ m' k, m.insert v = some (m', k) := by
  have hfl := hm.free_length
  have : ¬ (m.free = [] ∧ idMax ≤ m.map.nextPushIndex) := by
    rintro ⟨h1, h2⟩
    rw [h1] at hfl
    simp [StableVec.nextPushIndex] at h2 hfl
    omega
  unfold insert
  rw [if_neg this]
  unfold insertRaw
  split
  · rename_i key hkey
    have hmem : key ∈ m.free := List.mem_of_getLast? hkey
    obtain ⟨hlt, hnone⟩ := (hm.mem_free key).1 hmem
    have hcap : key < m.map.cap := lt_of_lt_of_le hlt hm.le_cap
    simp [StableVec.insert, hcap]
  · simp

/-! ### insertWithKey -/

theorem insertWithKey_spec {m : IdMap V} (k : Nat) (v : V) (hm : m.WF) (hk : k < idMax) :
    ∃ m', m.insertWithKey k v = some (m', m.get k) ∧ m'.WF ∧
      (∀ j, m'.get j = if j = k then some v else m.get j) ∧
      m'.size + (if (m.get k).isSome then 1 else 0) = m.size + 1 := by
  by_cases hex : m.map.slots.length ≤ k
  · -- beyond the end
    have hnone : m.get k = none := by rw [get_def, List.getElem?_eq_none hex]; rfl
    unfold insertWithKey
    simp only [StableVec.nextPushIndex, hex, if_true, StableVec.reserve, StableVec.insert]
    have hmg : StableVec.get ⟨m.map.slots,
      max m.map.cap (m.map.slots.length + (k + 1 - m.map.slots.length))⟩ k = m.get k := rfl
    have hcap : k < max m.map.cap (m.map.slots.length + (k + 1 - m.map.slots.length)) := by omega
    simp only [hmg, hcap, if_true]
    refine ⟨_, rfl, ?_⟩
    set s := m.map.slots ++ List.replicate (k + 1 - m.map.slots.length) none with hs
    have hsl : s.length = k + 1 := by simp [hs]; omega
    have hsg : ∀ j, s[j]?.join = m.get j := by
      intro j
      rw [hs, get_def]
      by_cases hj : j < m.map.slots.length
      · rw [List.getElem?_append_left hj]
      · rw [List.getElem?_append_right (by omega), List.getElem?_eq_none (by omega : _ ≤ j)]
        rw [List.getElem?_replicate]
        split <;> simp
    have hg := get_set s (max m.map.cap (m.map.slots.length + (k + 1 - m.map.slots.length)))
      (m.free ++ List.range' m.map.slots.length (k - m.map.slots.length)) k (some v)
      (by omega)
    refine ⟨⟨?_, ?_, ?_, ?_⟩, ?_, ?_⟩
    · refine List.Nodup.append hm.nodup List.nodup_range' ?_
      intro a ha hb
      have := ((hm.mem_free a).1 ha).1
      simp [List.mem_range'] at hb
      omega
    · intro j
      rw [hg, hsg]
      simp only [List.mem_append, List.mem_range'_1, List.length_set, hsl]
      rw [hm.mem_free]
      by_cases hjk : j = k
      · subst hjk; simp; omega
      · simp only [hjk, if_false]
        by_cases hj : j < m.map.slots.length
        · constructor
          · rintro (⟨a, b⟩ | ⟨a, b⟩)
            · exact ⟨by omega, b⟩
            · omega
          · rintro ⟨a, b⟩; exact Or.inl ⟨hj, b⟩
        · have hn : m.get j = none := by
            rw [get_def, List.getElem?_eq_none (by omega)]; rfl
          simp only [hn, and_true]
          omega
    · simp [hsl]; omega
    · simp only [List.length_set, hsl]; omega
    · intro j; rw [hg, hsg]
    · rw [hnone]
      have := countP_set_some s k (by omega) v
      rw [hsg, hnone] at this
      have h2 : s.countP Option.isSome = m.size := by
        rw [hs, List.countP_append, List.countP_replicate]
        simp [size]
      rw [h2] at this
      simpa [size] using this
  · -- inside
    have hex : k < m.map.slots.length := by omega
    have hcap : k < m.map.cap := lt_of_lt_of_le hex hm.le_cap
    have hd : ¬ m.map.slots.length ≤ k := by omega
    have hrep : k + 1 - m.map.slots.length = 0 := by omega
    have hg := fun f => get_set m.map.slots m.map.cap f k (some v) hex
    have hsz := countP_set_some m.map.slots k hex v
    unfold insertWithKey
    simp only [StableVec.nextPushIndex, hd, if_false, StableVec.insert,
      if_pos hcap, hrep, List.replicate_zero, List.append_nil]
    have hmg : m.map.get k = m.get k := rfl
    rw [hmg]
    cases hgk : m.get k with
    | none =>
      have hmem : k ∈ m.free := (hm.mem_free k).2 ⟨hex, hgk⟩
      simp only [Option.isNone_none, if_true, if_pos hmem]
      refine ⟨_, rfl, ⟨hm.nodup.erase _, ?_, ?_, ?_⟩, ?_, ?_⟩
      · intro j
        rw [hg, hm.nodup.mem_erase_iff, hm.mem_free]
        simp only [List.length_set]
        by_cases hjk : j = k
        · subst hjk; simp
        · simp only [hjk, if_false, ne_eq, not_false_eq_true, true_and]; rfl
      · simpa using hm.le_cap
      · simpa using hm.le_max
      · intro j; rw [hg]; rfl
      · rw [← get_def, hgk] at hsz
        simpa [size] using hsz
    | some w =>
      simp only [Option.isNone_some, Bool.false_eq_true, if_false]
      refine ⟨_, rfl, ⟨hm.nodup, ?_, ?_, ?_⟩, ?_, ?_⟩
      · intro j
        rw [hg, hm.mem_free]
        simp only [List.length_set]
        by_cases hjk : j = k
        · subst hjk; simp [hgk]
        · simp only [hjk, if_false]; rfl
      · simpa using hm.le_cap
      · simpa using hm.le_max
      · intro j; rw [hg]; rfl
      · rw [← get_def, hgk] at hsz
        simpa [size] using hsz

/-! ### remove -/

theorem remove_spec {m : IdMap V} (k : Nat) (hm : m.WF) :
    ∃ m', m.remove k = some (m', m.get k) ∧ m'.WF ∧
      (∀ j, m'.get j = if j = k then none else m.get j) ∧
      m'.size + (if (m.get k).isSome then 1 else 0) = m.size ∧
      m'.map.slots.length = m.map.slots.length := by
  by_cases hcap : k < m.map.cap
  · by_cases hlt : k < m.map.slots.length
    · have hg := fun f => get_set m.map.slots m.map.cap f k none hlt
      have hsz := countP_set_none m.map.slots k hlt
      rw [← get_def] at hsz
      unfold remove
      simp only [hcap, if_true, StableVec.remove]
      have hmg : m.map.get k = m.get k := rfl
      rw [hmg]
      cases hgk : m.get k with
      | none =>
        simp only [Option.isSome_none, Bool.false_eq_true, if_false]
        refine ⟨_, rfl, ⟨hm.nodup, ?_, ?_, ?_⟩, ?_, ?_, ?_⟩
        · intro j
          rw [hg, hm.mem_free]
          simp only [List.length_set]
          by_cases hjk : j = k
          · subst hjk; simp [hgk]
          · simp only [hjk, if_false]; rfl
        · simpa using hm.le_cap
        · simpa using hm.le_max
        · intro j; rw [hg]; rfl
        · rw [hgk] at hsz; simpa [size] using hsz
        · simp
      | some w =>
        simp only [Option.isSome_some, if_true]
        refine ⟨_, rfl, ⟨?_, ?_, ?_, ?_⟩, ?_, ?_, ?_⟩
        · refine List.Nodup.append hm.nodup (List.nodup_singleton _) ?_
          intro a ha hb
          rw [List.mem_singleton] at hb
          subst hb
          rw [hm.mem_free, hgk] at ha
          simp at ha
        · intro j
          rw [hg]
          simp only [List.length_set, List.mem_append, List.mem_singleton]
          rw [hm.mem_free]
          by_cases hjk : j = k
          · subst hjk; simp [hlt]
          · simp only [hjk, if_false, or_false]; rfl
        · simpa using hm.le_cap
        · simpa using hm.le_max
        · intro j; rw [hg]; rfl
        · rw [hgk] at hsz; simpa [size] using hsz
        · simp
    · have hnone : m.get k = none := by
        rw [get_def, List.getElem?_eq_none (by omega)]; rfl
      have hmg : m.map.get k = m.get k := rfl
      have hset : m.map.slots.set k none = m.map.slots := List.set_eq_of_length_le (by omega)
      unfold remove
      simp only [hcap, if_true, StableVec.remove, hmg, hnone, Option.isSome_none,
        Bool.false_eq_true, if_false, hset]
      refine ⟨m, rfl, hm, ?_, by simp, rfl⟩
      intro j
      by_cases hjk : j = k
      · subst hjk; simp [hnone]
      · simp [hjk]
  · have hnone : m.get k = none := by
      rw [get_def, List.getElem?_eq_none (by have := hm.le_cap; omega)]; rfl
    unfold remove
    simp only [hcap, if_false, hnone]
    refine ⟨m, rfl, hm, ?_, by simp, rfl⟩
    intro j
    by_cases hjk : j = k
    · subst hjk; simp [hnone]
    · simp [hjk]

/-! ### modify -/

theorem get_modify (m : IdMap V) (k : Nat) (f : V → V) (j : Nat) :
    (m.modify k f).get j = if j = k then (m.get j).map f else m.get j := by
  rw [get_def, get_def]
  show (m.map.slots.modify k (Option.map f))[j]?.join = _
  rw [List.getElem?_modify]
  by_cases h : k = j
  · subst h
    cases hs : m.map.slots[k]? with
    | none => simp
    | some o => cases o <;> simp
  · simp [h, Ne.symm h]

theorem size_modify (m : IdMap V) (k : Nat) (f : V → V) : (m.modify k f).size = m.size := by
  show (m.map.slots.modify k (Option.map f)).countP _ = m.map.slots.countP _
  generalize m.map.slots = s
  induction s generalizing k with
  | nil => simp
  | cons a s ih =>
    cases k with
    | zero => cases a <;> simp
    | succ k => cases a <;> simp [ih]

theorem WF.modify {m : IdMap V} (hm : m.WF) (k : Nat) (f : V → V) : (m.modify k f).WF := by
  have hl : (m.modify k f).map.slots.length = m.map.slots.length := by
    show (m.map.slots.modify k (Option.map f)).length = _
    simp
  refine ⟨hm.nodup, ?_, ?_, ?_⟩
  · intro j
    rw [hl, get_modify]
    show j ∈ m.free ↔ _
    rw [hm.mem_free]
    by_cases hjk : j = k
    · subst hjk; simp
    · simp [hjk]
  · rw [hl]; exact hm.le_cap
  · rw [hl]; exact hm.le_max

/-! ### retain, clear, extend -/

theorem retain_foldlM (p : Nat → V → Bool) (l : List Nat) (hnd : l.Nodup) :
    ∀ (m : IdMap V), m.WF →
    ∃ m', l.foldlM (retainStep p) m = some m' ∧ m'.WF ∧
      ∀ j, m'.get j = if j ∈ l then (m.get j).filter (p j) else m.get j := by
  induction l with
  | nil => intro m hm; exact ⟨m, rfl, hm, by simp⟩
  | cons a l ih =>
    intro m hm
    rw [List.nodup_cons] at hnd
    have key : ∃ m1, retainStep p m a = some m1 ∧ m1.WF ∧
        ∀ j, m1.get j = if j = a then (m.get j).filter (p j) else m.get j := by
      unfold retainStep
      cases hga : m.get a with
      | none =>
        refine ⟨m, by simp, hm, ?_⟩
        intro j
        by_cases hja : j = a
        · subst hja; simp [hga]
        · simp [hja]
      | some v =>
        cases hp : p a v with
        | true =>
          refine ⟨m, by simp [hp], hm, ?_⟩
          intro j
          by_cases hja : j = a
          · subst hja; simp [hga, hp, Option.filter]
          · simp [hja]
        | false =>
          obtain ⟨m1, h1, h2, h3, -⟩ := remove_spec a hm
          refine ⟨m1, by simp [hp, h1], h2, ?_⟩
          intro j
          rw [h3]
          by_cases hja : j = a
          · subst hja; simp [hga, hp, Option.filter]
          · simp [hja]
    obtain ⟨m1, h1, h2, h3⟩ := key
    obtain ⟨m', h4, h5, h6⟩ := ih hnd.2 m1 h2
    refine ⟨m', ?_, h5, ?_⟩
    · rw [List.foldlM_cons, h1]; exact h4
    · intro j
      rw [h6, h3]
      by_cases hja : j = a
      · subst hja; simp [hnd.1]
      · simp [hja]

theorem retain_spec {m : IdMap V} (p : Nat → V → Bool) (hm : m.WF) :
    ∃ m', m.retain p = some m' ∧ m'.WF ∧ ∀ j, m'.get j = (m.get j).filter (p j) := by
  obtain ⟨m', h1, h2, h3⟩ := retain_foldlM p (List.range m.map.nextPushIndex)
    List.nodup_range m hm
  refine ⟨m', h1, h2, ?_⟩
  intro j
  rw [h3]
  by_cases hj : j < m.map.slots.length
  · rw [if_pos (by simpa [StableVec.nextPushIndex] using hj)]
  · have hnone : m.get j = none := by
      rw [get_def, List.getElem?_eq_none (by omega)]; rfl
    rw [hnone]; split <;> rfl

theorem size_le_of_get {m m' : IdMap V} (hm : m.WF) (hm' : m'.WF)
    (h : ∀ j, (m'.get j).isSome → (m.get j).isSome) : m'.size ≤ m.size := by
  have key : ∀ m : IdMap V, m.WF →
      ∃ l : List Nat, l.Nodup ∧ l.length = m.size ∧ ∀ j, j ∈ l ↔ (m.get j).isSome := by
    intro m hm
    refine ⟨(List.range m.map.slots.length).filter fun j => (m.get j).isSome,
      List.Nodup.filter _ List.nodup_range, ?_, ?_⟩
    · have h1 := hm.free_length
      have h2 : m.free.Perm ((List.range m.map.slots.length).filter fun j => !(m.get j).isSome) := by
        apply (List.perm_ext_iff_of_nodup hm.nodup (List.Nodup.filter _ List.nodup_range)).2
        intro k; simp [hm.mem_free]
      have h3 := h2.length_eq
      have h4 := List.length_eq_length_filter_add (l := List.range m.map.slots.length)
        (fun j => (m.get j).isSome)
      simp only [List.length_range] at h4
      omega
    · intro j
      rw [List.mem_filter, List.mem_range]
      constructor
      · exact fun h => h.2
      · intro h
        obtain ⟨v, hv⟩ := Option.isSome_iff_exists.1 h
        exact ⟨lt_of_get hv, h⟩
  obtain ⟨l, hl1, hl2, hl3⟩ := key m hm
  obtain ⟨l', hl1', hl2', hl3'⟩ := key m' hm'
  rw [← hl2, ← hl2']
  exact (List.subperm_of_subset hl1' (fun j hj => (hl3 j).2 (h j ((hl3' j).1 hj)))).length_le

theorem WF.clear (m : IdMap V) : m.clear.WF := by
  constructor <;> simp [IdMap.clear, StableVec.clear, get_def]

theorem get_clear (m : IdMap V) (k) : m.clear.get k = none := by
  simp [IdMap.clear, StableVec.clear, get_def]

theorem size_clear (m : IdMap V) : m.clear.size = 0 := by
  simp [IdMap.clear, StableVec.clear, size]

theorem extendValues_some {m m' : IdMap V} {vs : List V} {ks : List Nat} (hm : m.WF)
    (h : m.extendValues vs = some (m', ks)) :
    m'.WF ∧ IdMapSpec.AbsFill m.get vs ks m'.get ∧ m'.size = m.size + vs.length := by
  induction vs generalizing m ks with
  | nil =>
    simp [extendValues] at h
    obtain ⟨rfl, rfl⟩ := h
    exact ⟨hm, .nil _, by simp⟩
  | cons v vs ih =>
    unfold extendValues at h
    split at h
    · simp at h
    rename_i m1 k h1
    split at h
    · simp at h
    rename_i m2 ks' h2
    simp only [Option.some.injEq, Prod.mk.injEq] at h
    obtain ⟨rfl, rfl⟩ := h
    obtain ⟨a1, a2, a3, a4, a5⟩ := insert_some hm h1
    obtain ⟨b1, b2, b3⟩ := ih a1 h2
    refine ⟨b1, .cons a2 a3 ?_, by simp [b3, a5]; omega⟩
    have : m1.get = Function.update m.get k (some v) := by
      funext j; rw [a4, Function.update_apply]
    rwa [← this]

theorem extendValues_isSome {m : IdMap V} (vs : List V) (hm : m.WF)
    (hroom : m.size + vs.length ≤ idMax) : ∃ m' ks, m.extendValues vs = some (m', ks) := by
  induction vs generalizing m with
  | nil => exact ⟨m, [], rfl⟩
  | cons v vs ih =>
    simp only [List.length_cons] at hroom
    obtain ⟨m1, k, h1⟩ := insert_isSome (v := v) hm (by omega)
    obtain ⟨a1, a2, a3, a4, a5⟩ := insert_some hm h1
    obtain ⟨m2, ks, h2⟩ := ih a1 (by omega)
    exact ⟨m2, k :: ks, by simp [extendValues, h1, h2]⟩

theorem extendPairs_spec {m : IdMap V} (kvs : List (Nat × V)) (hm : m.WF)
    (hk : ∀ kv ∈ kvs, kv.1 < idMax) :
    ∃ m', m.extendPairs kvs = some m' ∧ m'.WF ∧
      m'.get = kvs.foldl (fun (t : IdMapSpec.Abs V) kv => Function.update t kv.1 (some kv.2)) m.get ∧
      m'.size ≤ m.size + kvs.length := by
  induction kvs generalizing m with
  | nil => exact ⟨m, rfl, hm, rfl, by simp⟩
  | cons kv kvs ih =>
    obtain ⟨k, v⟩ := kv
    obtain ⟨m1, h1, h2, h3, h4⟩ := insertWithKey_spec k v hm (hk (k, v) (by simp))
    obtain ⟨m2, h5, h6, h7, h8⟩ := ih h2 (fun kv hkv => hk kv (by simp [hkv]))
    refine ⟨m2, by simp [extendPairs, h1, h5], h6, ?_, ?_⟩
    · rw [h7]
      have : m1.get = Function.update m.get k (some v) := by
        funext j; rw [h3, Function.update_apply]
      rw [this]; rfl
    · simp only [List.length_cons]; omega

end IdMap
end Tet
