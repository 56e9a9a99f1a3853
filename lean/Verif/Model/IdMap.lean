/-!
# Model of `IdMap` (src/id_map.rs) and of the `StableVec` it is built on
-/

namespace Tet

/-- `IdType::MAX` for `IdType = u32` (src/id_map.rs:10).  It is the value of the
invalid id (src/lib.rs:42-44) and of the ghost vertex (src/tet.rs:33-36). -/
def idMax : Nat := 2 ^ 32 - 1

/-- Crate `stable_vec` 0.4: `slots` are the slots up to `next_push_index`
(so `next_push_index = slots.length`), `cap` is the capacity.  Growth of the
capacity is modelled as the least value the documentation promises. -/
structure StableVec (V : Type) where
  slots : List (Option V)
  cap : Nat

namespace StableVec
variable {V : Type}

/-- `StableVec::default` -/
def empty : StableVec V := ⟨[], 0⟩

/-- `StableVec::next_push_index` -/
def nextPushIndex (s : StableVec V) : Nat := s.slots.length

/-- `StableVec::num_elements` -/
def numElements (s : StableVec V) : Nat := s.slots.countP Option.isSome

/-- `StableVec::get` -/
def get (s : StableVec V) (i : Nat) : Option V := s.slots[i]?.join

/-- `StableVec::push`; returns the new vector and the index of the element. -/
def push (s : StableVec V) (v : V) : StableVec V × Nat :=
  (⟨s.slots ++ [some v], max s.cap (s.slots.length + 1)⟩, s.slots.length)

/-- `StableVec::reserve` -/
def reserve (s : StableVec V) (additional : Nat) : StableVec V :=
  ⟨s.slots, max s.cap (s.slots.length + additional)⟩

/-- `StableVec::insert`: panics (`none`) if the index is not below the capacity;
otherwise replaces the slot, extending `next_push_index` if needed, and returns
the old element. -/
def insert (s : StableVec V) (i : Nat) (v : V) : Option (StableVec V × Option V) :=
  if i < s.cap then
    some (⟨(s.slots ++ List.replicate (i + 1 - s.slots.length) none).set i (some v), s.cap⟩,
      s.get i)
  else none

/-- `StableVec::remove`: panics if the index is not below the capacity. -/
def remove (s : StableVec V) (i : Nat) : Option (StableVec V × Option V) :=
  if i < s.cap then some (⟨s.slots.set i none, s.cap⟩, s.get i) else none

/-- `StableVec::clear` (the capacity is kept). -/
def clear (s : StableVec V) : StableVec V := ⟨[], s.cap⟩

end StableVec

/-- src/id_map.rs:20-25 -/
structure IdMap (V : Type) where
  map : StableVec V
  free : List Nat

namespace IdMap
variable {V : Type}

/-- src/id_map.rs:27-35, 39-41 (`default`, `new`) -/
def empty : IdMap V := ⟨StableVec.empty, []⟩

/-- src/id_map.rs:44-50.  `none` stands for the failing `debug_assert_eq!`. -/
def len (m : IdMap V) : Option Nat :=
  if m.map.numElements = m.map.nextPushIndex - m.free.length then some m.map.numElements
  else none

/-- src/id_map.rs:53-55 -/
def get (m : IdMap V) (k : Nat) : Option V := m.map.get k

/-- src/id_map.rs:58-60, 72-74, 244-249: write access to an existing element.
Writing to a key that is not live is a no-op here; callers that would panic
check for liveness first. -/
def modify (m : IdMap V) (k : Nat) (f : V → V) : IdMap V :=
  ⟨⟨m.map.slots.modify k (Option.map f), m.map.cap⟩, m.free⟩

/-- src/id_map.rs:77-85, literally, including the truncation `idx as u32`. -/
def insertRaw (m : IdMap V) (v : V) : Option (IdMap V × Nat) :=
  match m.free.getLast? with
  | some key =>
    match m.map.insert key v with
    | some (s, _) => some (⟨s, m.free.dropLast⟩, key)
    | none => none
  | none =>
    let (s, idx) := m.map.push v
    some (⟨s, m.free⟩, idx % 2 ^ 32)

/-- src/id_map.rs:77-85, failing instead of handing out an id that is not below
`IdType::MAX` (see DESIGN.md; `insertRaw` is the literal version, the two agree
while fewer than `2^32-1` slots are in use). -/
def insert (m : IdMap V) (v : V) : Option (IdMap V × Nat) :=
  if m.free = [] ∧ idMax ≤ m.map.nextPushIndex then none else insertRaw m v

/-- src/id_map.rs:88-105, split by the value of the flag `expanded`. -/
def insertWithKey (m : IdMap V) (key : Nat) (v : V) : Option (IdMap V × Option V) :=
  if m.map.nextPushIndex ≤ key then
    -- `expanded`: create more space; all new slots below `key` become free
    match (m.map.reserve (key + 1 - m.map.nextPushIndex)).insert key v with
    | none => none
    | some (s, old) =>
      some (⟨s, m.free ++ List.range' m.map.nextPushIndex (key - m.map.nextPushIndex)⟩, old)
  else
    match m.map.insert key v with
    | none => none
    | some (s, old) =>
      if old.isNone then
        -- `position(..).unwrap()` panics if the key is not in the free list
        if key ∈ m.free then some (⟨s, m.free.erase key⟩, old) else none
      else some (⟨s, m.free⟩, old)

/-- src/id_map.rs:109-117, 256-262: the iterator driven to its end. -/
def extendValues (m : IdMap V) : List V → Option (IdMap V × List Nat)
  | [] => some (m, [])
  | v :: vs =>
    match m.insert v with
    | none => none
    | some (m', k) =>
      match extendValues m' vs with
      | none => none
      | some (m'', ks) => some (m'', k :: ks)

/-- src/id_map.rs:120-132 -/
def remove (m : IdMap V) (key : Nat) : Option (IdMap V × Option V) :=
  if key < m.map.cap then
    match m.map.remove key with
    | none => none
    | some (s, old) =>
      if old.isSome then some (⟨s, m.free ++ [key]⟩, old) else some (⟨s, m.free⟩, old)
  else some (m, none)

/-- The loop body of `retain`, src/id_map.rs:136-141. -/
def retainStep (p : Nat → V → Bool) (m : IdMap V) (i : Nat) : Option (IdMap V) :=
  if ((m.get i).map (fun v => !p i v)).getD false then (m.remove i).map Prod.fst else some m

/-- src/id_map.rs:135-142 (the predicate is taken to be pure) -/
def retain (m : IdMap V) (p : Nat → V → Bool) : Option (IdMap V) :=
  (List.range m.map.nextPushIndex).foldlM (retainStep p) m

/-- src/id_map.rs:145-148 -/
def clear (m : IdMap V) : IdMap V := ⟨m.map.clear, []⟩

/-- src/id_map.rs:151-156, 196-206, 317-338 (`iter`, `into_iter`): `StableVec`
iterates over the existing elements by ascending index. -/
def iter (m : IdMap V) : List (Nat × V) :=
  (List.range m.map.nextPushIndex).filterMap fun i => (m.get i).map fun v => (i, v)

/-- src/id_map.rs:167-172, 269-275 -/
def keys (m : IdMap V) : List Nat := m.iter.map Prod.fst

/-- src/id_map.rs:175-186, 281-300 -/
def values (m : IdMap V) : List V := m.iter.map Prod.snd

/-- src/id_map.rs:208-215 (`Extend<(K, V)>`) -/
def extendPairs (m : IdMap V) : List (Nat × V) → Option (IdMap V)
  | [] => some m
  | (k, v) :: kvs =>
    match m.insertWithKey k v with
    | none => none
    | some (m', _) => extendPairs m' kvs

/-- src/id_map.rs:217-223 (`FromIterator<(K, V)>`) -/
def fromPairs (kvs : List (Nat × V)) : Option (IdMap V) := extendPairs empty kvs

/-- src/id_map.rs:225-233 (`FromIterator<V>`): pushes onto the `StableVec` directly. -/
def fromValues (vs : List V) : IdMap V :=
  ⟨vs.foldl (fun s v => (s.push v).1) StableVec.empty, []⟩

end IdMap
end Tet
