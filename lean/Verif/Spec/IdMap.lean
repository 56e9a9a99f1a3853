import Verif.Model.IdMap
import Mathlib.Logic.Function.Basic

/-!
# Specification of id maps: histories against an abstract finite map
-/

namespace Tet.IdMapSpec

/-- The operations of a history. -/
inductive Op (V : Type) where
  | insert (v : V)
  | insertWithKey (k : Nat) (v : V)
  | remove (k : Nat)
  | retain (p : Nat → V → Bool)
  | clear
  | extendValues (vs : List V)
  | extendPairs (kvs : List (Nat × V))

/-- What an operation hands back to the caller. -/
inductive Out (V : Type) where
  | key (k : Nat)
  | old (o : Option V)
  | keys (ks : List Nat)
  | unit

/-- The abstract state: a map from ids to values. -/
abbrev Abs (V : Type) := Nat → Option V

/-- Storing `vs` one by one under the ids `ks`, each unused at its time and not reserved. -/
inductive AbsFill {V : Type} : Abs V → List V → List Nat → Abs V → Prop
  | nil (s) : AbsFill s [] [] s
  | cons {s v vs k ks s'} : s k = none → k < idMax →
      AbsFill (Function.update s k (some v)) vs ks s' → AbsFill s (v :: vs) (k :: ks) s'

/-- Abstract meaning of one operation with its output. -/
def AbsStep {V : Type} (s : Abs V) : Op V → Out V → Abs V → Prop
  | .insert v, .key k, s' => s k = none ∧ k < idMax ∧ s' = Function.update s k (some v)
  | .insertWithKey k v, .old o, s' => o = s k ∧ s' = Function.update s k (some v)
  | .remove k, .old o, s' => o = s k ∧ s' = Function.update s k none
  | .retain p, .unit, s' => s' = fun k => (s k).filter (p k)
  | .clear, .unit, s' => s' = fun _ => none
  | .extendValues vs, .keys ks, s' => AbsFill s vs ks s'
  | .extendPairs kvs, .unit, s' =>
      s' = kvs.foldl (fun (t : Abs V) kv => Function.update t kv.1 (some kv.2)) s
  | _, _, _ => False

/-- Abstract meaning of a history with the list of its outputs. -/
inductive AbsRun {V : Type} : Abs V → List (Op V) → List (Out V) → Abs V → Prop
  | nil (s) : AbsRun s [] [] s
  | cons {s op out s' ops outs s''} : AbsStep s op out s' → AbsRun s' ops outs s'' →
      AbsRun s (op :: ops) (out :: outs) s''

/-- Performing one operation on the modelled `IdMap` (`none` = panic). -/
def step {V : Type} (m : IdMap V) : Op V → Option (IdMap V × Out V)
  | .insert v => (m.insert v).map fun r => (r.1, .key r.2)
  | .insertWithKey k v => (m.insertWithKey k v).map fun r => (r.1, .old r.2)
  | .remove k => (m.remove k).map fun r => (r.1, .old r.2)
  | .retain p => (m.retain p).map fun r => (r, .unit)
  | .clear => some (m.clear, .unit)
  | .extendValues vs => (m.extendValues vs).map fun r => (r.1, .keys r.2)
  | .extendPairs kvs => (m.extendPairs kvs).map fun r => (r, .unit)

/-- Performing a history. -/
def run {V : Type} (m : IdMap V) : List (Op V) → Option (IdMap V × List (Out V))
  | [] => some (m, [])
  | op :: ops => do
    let (m', out) ← step m op
    let (m'', outs) ← run m' ops
    return (m'', out :: outs)

/-- The number of elements an operation may add. -/
def Op.adds {V : Type} : Op V → Nat
  | .insert _ => 1
  | .insertWithKey _ _ => 1
  | .extendValues vs => vs.length
  | .extendPairs kvs => kvs.length
  | _ => 0

/-- Explicitly chosen keys must not be the reserved id. -/
def Op.KeysOk {V : Type} : Op V → Prop
  | .insertWithKey k _ => k < idMax
  | .extendPairs kvs => ∀ kv ∈ kvs, kv.1 < idMax
  | _ => True

/-- States an id map can get into: the result of some history on the empty map. -/
def Reachable {V : Type} (m : IdMap V) : Prop :=
  ∃ ops outs, (∀ op ∈ ops, Op.KeysOk op) ∧ run IdMap.empty ops = some (m, outs)

end Tet.IdMapSpec
