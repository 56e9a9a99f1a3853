import Verif.Proofs.IdMapHistory

/-!
# Properties C01-C06: id-keyed collections

`IdMapSpec.Reachable m`: `m` results from some finite history of operations on the
empty map (explicit keys not being the reserved id).
-/

namespace Tet.Props
open Tet IdMapSpec
variable {V : Type}

/-! ## C01 -/

/-- **C01** A new id was not in use, is not the reserved id, holds the new element,
and every live id keeps its element. -/
theorem C01_fresh_id {m m' : IdMap V} {v : V} {k : Nat} (hm : Reachable m)
    (h : m.insert v = some (m', k)) :
    m.get k = none ∧ k ≠ idMax ∧ m'.get k = some v ∧
      ∀ j w, m.get j = some w → m'.get j = some w := by
  obtain ⟨-, h1, h2, h3, -⟩ := IdMap.insert_some hm.wf h
  refine ⟨h1, by omega, by simp [h3], ?_⟩
  intro j w hj
  rw [h3, if_neg, hj]
  rintro rfl
  rw [h1] at hj; cases hj

/-- **C01** Insertion succeeds as long as there are fewer than `2^32 - 1` live elements,
and then it is exactly the literal code (with its truncating cast). -/
theorem C01_insert_succeeds {m : IdMap V} (v : V) (hm : Reachable m) {n : Nat}
    (hlen : m.len = some n) (hn : n < idMax) :
    ∃ m' k, m.insert v = some (m', k) ∧ m.insertRaw v = some (m', k) := by
  rw [hm.wf.len_eq, Option.some.injEq] at hlen
  obtain ⟨m', k, h⟩ := IdMap.insert_isSome (v := v) hm.wf (by omega)
  refine ⟨m', k, h, ?_⟩
  unfold IdMap.insert at h
  split at h
  · cases h
  · exact h

/-- **C01**, the limit of the code: the literal insertion into a full map with `2^32`
slots hands out id 0 although it is in use (the cast `as u32` wraps around). -/
theorem C01_wraps_when_full {m : IdMap V} (v w : V) (hfree : m.free = [])
    (hfull : m.map.nextPushIndex = 2 ^ 32) (h0 : m.get 0 = some w) :
    ∃ m', m.insertRaw v = some (m', 0) ∧ m'.get 0 = some w := by
  have hl : m.map.slots.length = 2 ^ 32 := hfull
  refine ⟨⟨(m.map.push v).1, m.free⟩, ?_, ?_⟩
  · simp [IdMap.insertRaw, hfree, StableVec.push, hl]
  · rw [IdMap.get_def] at h0 ⊢
    show (m.map.slots ++ [some v])[0]?.join = _
    rw [List.getElem?_append_left (by omega)]
    exact h0

/-- A reachable map with a hole (id 1 was removed): the next insertion reuses it. -/
example : ∃ m m', Reachable m ∧ m.get 1 = none ∧ m.get 2 = some "c" ∧
    IdMap.insert m "d" = some (m', 1) := by
  refine ⟨⟨⟨[some "a", none, some "c"], 3⟩, [1]⟩, ⟨⟨[some "a", some "d", some "c"], 3⟩, []⟩,
    ⟨[.insert "a", .insert "b", .insert "c", .remove 1], _, by simp [Op.KeysOk], rfl⟩,
    rfl, rfl, rfl⟩

/-! ## C02 -/

/-- **C02** Every history whose explicit keys are not reserved and that inserts at most
`2^32 - 1` elements runs without panic, and its outputs and final contents are those of an
abstract map. -/
theorem C02_refines_finite_map (ops : List (Op V)) (hk : ∀ op ∈ ops, op.KeysOk)
    (hroom : (ops.map Op.adds).sum ≤ idMax) :
    ∃ m outs, run IdMap.empty ops = some (m, outs) ∧
      AbsRun (fun _ => none) ops outs m.get := by
  obtain ⟨m, outs, h⟩ := run_isSome (m := IdMap.empty) IdMap.WF.empty hk
    (by simpa [IdMap.size, IdMap.empty, StableVec.empty] using hroom)
  refine ⟨m, outs, h, ?_⟩
  have := (run_some IdMap.WF.empty hk h).2
  rwa [show (IdMap.empty : IdMap V).get = fun _ => none from funext IdMap.get_empty] at this

/-- A history exercising every operation, with its outputs. -/
example : ∃ m, run IdMap.empty
    [.insert "a", .insertWithKey 3 "b", .extendValues ["c", "d", "e"], .remove 1, .remove 9,
     .retain (fun k _ => k != 0), .extendPairs [(3, "z"), (1, "y")], .insert "f"] =
    some (m, [.key 0, .old none, .keys [2, 1, 4], .old (some "d"), .old none, .unit, .unit,
      .key 0]) ∧ m.iter = [(0, "f"), (1, "y"), (2, "c"), (3, "z"), (4, "e")] :=
  ⟨_, rfl, rfl⟩

/-! ## C03 -/

/-- **C03** `len` does not hit its debug assertion and counts the listed ids; the listed ids
are strictly ascending (hence each listed once) and are exactly the live ids with their
values. -/
theorem C03_len_and_iter {m : IdMap V} (hm : Reachable m) :
    m.len = some m.iter.length ∧ m.keys.Pairwise (· < ·) ∧
      (∀ k v, (k, v) ∈ m.iter ↔ m.get k = some v) ∧
      m.iter = m.keys.zip m.values ∧ m.keys.length = m.values.length := by
  have hl := length_keys hm.wf
  refine ⟨?_, ?_, fun k v => mem_iter, ?_, ?_⟩
  · rw [hm.wf.len_eq, ← hl, IdMap.keys, List.length_map]
  · rw [keys_eq]
    exact List.Pairwise.filter _ List.pairwise_lt_range
  · simp [IdMap.keys, IdMap.values, List.zip_map', ]
  · simp [IdMap.keys, IdMap.values]

example : Reachable (⟨⟨[some 'x', none, some 'y'], 3⟩, [1]⟩ : IdMap Char) ∧
    (⟨⟨[some 'x', none, some 'y'], 3⟩, [1]⟩ : IdMap Char).iter = [(0, 'x'), (2, 'y')] :=
  ⟨⟨[.insert 'x', .insert 'z', .insert 'y', .remove 1], _, by simp [Op.KeysOk], rfl⟩, rfl⟩

/-! ## C04 -/

/-- **C04** Inserting at a chosen id succeeds, returns the old element, changes exactly
this id, and leads to a reachable map (so `C01_fresh_id` applies to all that follows);
in particular the next automatic id is a different one. -/
theorem C04_insert_with_key {m : IdMap V} (k : Nat) (v : V) (hm : Reachable m)
    (hk : k < idMax) :
    ∃ m', m.insertWithKey k v = some (m', m.get k) ∧ Reachable m' ∧ m'.get k = some v ∧
      (∀ j, j ≠ k → m'.get j = m.get j) ∧
      ∀ w m'' k', m'.insert w = some (m'', k') → k' ≠ k ∧ m''.get k = some v := by
  obtain ⟨m', h1, h2, h3, -⟩ := IdMap.insertWithKey_spec k v hm.wf hk
  have hr : Reachable m' := hm.step (op := .insertWithKey k v) hk (by simp [step, h1]; rfl)
  have hkv : m'.get k = some v := by simp [h3]
  refine ⟨m', h1, hr, hkv, fun j hj => by simp [h3, hj], ?_⟩
  intro w m'' k' hi
  obtain ⟨a, -, -, d⟩ := C01_fresh_id hr hi
  refine ⟨?_, d k v hkv⟩
  rintro rfl
  rw [hkv] at a; cases a

/-- Far beyond the end, into a hole, and replacing. -/
example : ∃ m, run IdMap.empty [.insert 'a', .insertWithKey 4 'b', .insertWithKey 2 'c',
      .insertWithKey 4 'd'] =
    some (m, [.key 0, .old none, .old none, .old (some 'b')]) ∧ m.free = [1, 3] :=
  ⟨_, rfl, rfl⟩

/-! ## C05 -/

/-- **C05** `remove` never panics, returns what was there and removes exactly that. -/
theorem C05_remove {m : IdMap V} (k : Nat) (hm : Reachable m) :
    ∃ m', m.remove k = some (m', m.get k) ∧ Reachable m' ∧ m'.get k = none ∧
      ∀ j, j ≠ k → m'.get j = m.get j := by
  obtain ⟨m', h1, h2, h3, -⟩ := IdMap.remove_spec k hm.wf
  exact ⟨m', h1, hm.step (op := .remove k) trivial (by simp [step, h1]; rfl), by simp [h3],
    fun j hj => by simp [h3, hj]⟩

/-- **C05** `retain` keeps exactly the accepted elements. -/
theorem C05_retain {m : IdMap V} (p : Nat → V → Bool) (hm : Reachable m) :
    ∃ m', m.retain p = some m' ∧ Reachable m' ∧
      ∀ k v, m'.get k = some v ↔ m.get k = some v ∧ p k v = true := by
  obtain ⟨m', h1, h2, h3⟩ := IdMap.retain_spec p hm.wf
  refine ⟨m', h1, hm.step (op := .retain p) trivial (by simp [step, h1]; rfl), ?_⟩
  intro k v
  rw [h3, Option.filter_eq_some_iff]

/-- **C05** `clear` leaves nothing. -/
theorem C05_clear {m : IdMap V} (hm : Reachable m) :
    Reachable m.clear ∧ m.clear.len = some 0 ∧ ∀ k, m.clear.get k = none := by
  refine ⟨hm.step (op := .clear) trivial rfl, ?_, IdMap.get_clear m⟩
  rw [(IdMap.WF.clear m).len_eq, IdMap.size_clear]

example : ∃ m m', Reachable m ∧ m.retain (fun k (v : Nat) => k + v < 10) = some m' ∧
    m'.iter = [(0, 1), (2, 3)] :=
  ⟨_, _, ⟨[.extendValues [1, 20, 3]], _, by simp [Op.KeysOk], rfl⟩, rfl, rfl⟩

/-! ## C06 -/

/-- **C06** Building a map from `n` values gives ids `0..n-1` in order. -/
theorem C06_from_values (vs : List V) (h : vs.length ≤ idMax) :
    (IdMap.fromValues vs).len = some vs.length ∧
      ∀ i, (IdMap.fromValues vs).get i = vs[i]? := by
  refine ⟨?_, get_fromValues vs⟩
  have hwf := WF.fromValues vs h
  have hl := hwf.free_length
  have h2 : (IdMap.fromValues vs).map.slots = vs.map some := by
    show (vs.foldl (fun s v => (s.push v).1) StableVec.empty).slots = _
    rw [fromValues_slots]; simp [StableVec.empty]
  have h3 : (IdMap.fromValues vs).free = [] := rfl
  rw [hwf.len_eq]
  rw [h2, h3] at hl
  simpa using hl

/-- **C06** Extending any map: one new, distinct id per value, in order, holding the value;
all other ids unchanged. -/
theorem C06_extend_values {m : IdMap V} (vs : List V) (hm : Reachable m) {n : Nat}
    (hlen : m.len = some n) (hroom : n + vs.length ≤ idMax) :
    ∃ m' ks, m.extendValues vs = some (m', ks) ∧ Reachable m' ∧ ks.length = vs.length ∧
      ks.Nodup ∧ (∀ k ∈ ks, m.get k = none) ∧
      (∀ i (hi : i < ks.length) (hi' : i < vs.length), m'.get ks[i] = some vs[i]) ∧
      ∀ j, j ∉ ks → m'.get j = m.get j := by
  rw [hm.wf.len_eq, Option.some.injEq] at hlen
  obtain ⟨m', ks, h⟩ := IdMap.extendValues_isSome vs hm.wf (by omega)
  obtain ⟨h1, h2, h3⟩ := IdMap.extendValues_some hm.wf h
  obtain ⟨a1, a2, a3, a4, a5⟩ := h2.facts
  exact ⟨m', ks, h, hm.step (op := .extendValues vs) trivial (by simp [step, h]; rfl),
    a1, a2, fun k hk => (a3 k hk).1, a4, a5⟩

/-- **C06** On a fresh map the ids are `0..n-1` in order. -/
theorem C06_extend_values_fresh (vs : List V) (h : vs.length ≤ idMax) :
    ∃ m, IdMap.extendValues IdMap.empty vs = some (m, List.range vs.length) ∧
      ∀ i, m.get i = vs[i]? := by
  have key : ∀ (vs : List V) (m : IdMap V), m.WF → m.free = [] →
      m.map.slots.length + vs.length ≤ idMax →
      ∃ m', m.extendValues vs = some (m', List.range' m.map.slots.length vs.length) ∧
        m'.map.slots = m.map.slots ++ vs.map some := by
    intro vs
    induction vs with
    | nil => intro m _ _ _; exact ⟨m, rfl, by simp⟩
    | cons v vs ih =>
      intro m hm hf hl
      simp only [List.length_cons] at hl
      have hlt : m.map.slots.length < 2 ^ 32 := by
        have : idMax < 2 ^ 32 := by decide
        omega
      have hi : m.insert v = some (⟨(m.map.push v).1, []⟩, m.map.slots.length) := by
        unfold IdMap.insert
        rw [if_neg]
        · simp [IdMap.insertRaw, hf, StableVec.push]
          omega
        · rintro ⟨-, h⟩
          simp [StableVec.nextPushIndex] at h
          omega
      have hw := (IdMap.insert_some hm hi).1
      obtain ⟨m', h1, h2⟩ := ih _ hw rfl (by simp [StableVec.push]; omega)
      refine ⟨m', ?_, ?_⟩
      · simp only [IdMap.extendValues, hi, h1]
        simp [StableVec.push, List.range'_succ]
      · rw [h2]; simp [StableVec.push]
  obtain ⟨m, h1, h2⟩ := key vs IdMap.empty IdMap.WF.empty rfl
    (by simpa [IdMap.empty, StableVec.empty] using h)
  refine ⟨m, by simpa [IdMap.empty, StableVec.empty, List.range_eq_range'] using h1, ?_⟩
  intro i
  rw [IdMap.get_def, h2]
  cases hv : vs[i]? <;> simp [IdMap.empty, StableVec.empty, hv]

example : ∃ m, IdMap.extendValues (⟨⟨[some 'a', none], 2⟩, [1]⟩ : IdMap Char) ['b', 'c'] =
    some (m, [1, 2]) := ⟨_, rfl⟩

end Tet.Props
