import Verif.Proofs.IdMap

namespace Tet.IdMapSpec
variable {V : Type}
open IdMap

theorem update_eq_of {α : Type} {f g : Nat → α} {k : Nat} {a : α}
    (h : ∀ j, g j = if j = k then a else f j) : g = Function.update f k a := by
  funext j; rw [h, Function.update_apply]

theorem step_some {m m' : IdMap V} {op : Op V} {out : Out V} (hm : m.WF) (hk : op.KeysOk)
    (h : step m op = some (m', out)) :
    m'.WF ∧ AbsStep m.get op out m'.get ∧ m'.size ≤ m.size + op.adds := by
  cases op with
  | insert v =>
    simp only [step, Option.map_eq_some_iff, Prod.mk.injEq] at h
    obtain ⟨⟨a, k⟩, h1, rfl, rfl⟩ := h
    obtain ⟨b1, b2, b3, b4, b5⟩ := insert_some hm h1
    exact ⟨b1, ⟨b2, b3, update_eq_of b4⟩, by simp [b5, Op.adds]⟩
  | insertWithKey k v =>
    simp only [step, Option.map_eq_some_iff, Prod.mk.injEq] at h
    obtain ⟨⟨a, o⟩, h1, rfl, rfl⟩ := h
    obtain ⟨n, c1, c2, c3, c4⟩ := insertWithKey_spec k v hm hk
    rw [h1] at c1
    simp only [Option.some.injEq, Prod.mk.injEq] at c1
    obtain ⟨rfl, rfl⟩ := c1
    exact ⟨c2, ⟨rfl, update_eq_of c3⟩, by simp only [Op.adds]; omega⟩
  | remove k =>
    simp only [step, Option.map_eq_some_iff, Prod.mk.injEq] at h
    obtain ⟨⟨a, o⟩, h1, rfl, rfl⟩ := h
    obtain ⟨n, c1, c2, c3, c4, -⟩ := remove_spec k hm
    rw [h1] at c1
    simp only [Option.some.injEq, Prod.mk.injEq] at c1
    obtain ⟨rfl, rfl⟩ := c1
    exact ⟨c2, ⟨rfl, update_eq_of c3⟩, by simp only [Op.adds]; omega⟩
  | retain p =>
    simp only [step, Option.map_eq_some_iff, Prod.mk.injEq] at h
    obtain ⟨a, h1, rfl, rfl⟩ := h
    obtain ⟨n, c1, c2, c3⟩ := retain_spec p hm
    rw [h1, Option.some.injEq] at c1
    subst c1
    refine ⟨c2, funext c3, ?_⟩
    have := size_le_of_get hm c2 (fun j hj => by
      rw [c3] at hj
      cases hg : m.get j with
      | none => rw [hg] at hj; simp at hj
      | some v => rfl)
    simpa [Op.adds] using this
  | clear =>
    simp only [step, Option.some.injEq, Prod.mk.injEq] at h
    obtain ⟨rfl, rfl⟩ := h
    exact ⟨WF.clear m, funext (get_clear m), by simp [size_clear]⟩
  | extendValues vs =>
    simp only [step, Option.map_eq_some_iff, Prod.mk.injEq] at h
    obtain ⟨⟨a, ks⟩, h1, rfl, rfl⟩ := h
    obtain ⟨b1, b2, b3⟩ := extendValues_some hm h1
    exact ⟨b1, b2, by simp [b3, Op.adds]⟩
  | extendPairs kvs =>
    simp only [step, Option.map_eq_some_iff, Prod.mk.injEq] at h
    obtain ⟨a, h1, rfl, rfl⟩ := h
    obtain ⟨n, c1, c2, c3, c4⟩ := extendPairs_spec kvs hm hk
    rw [h1, Option.some.injEq] at c1
    subst c1
    exact ⟨c2, c3, by simpa [Op.adds] using c4⟩

theorem step_isSome {m : IdMap V} {op : Op V} (hm : m.WF) (hk : op.KeysOk)
    (hroom : m.size + op.adds ≤ idMax) : ∃ m' out, step m op = some (m', out) := by
  cases op with
  | insert v =>
    obtain ⟨m', k, h⟩ := insert_isSome (v := v) hm (by simp [Op.adds] at hroom; omega)
    exact ⟨m', .key k, by simp [step, h]⟩
  | insertWithKey k v =>
    obtain ⟨n, c1, -⟩ := insertWithKey_spec k v hm hk
    exact ⟨n, .old (m.get k), by simp [step, c1]⟩
  | remove k =>
    obtain ⟨n, c1, -⟩ := remove_spec k hm
    exact ⟨n, .old (m.get k), by simp [step, c1]⟩
  | retain p =>
    obtain ⟨n, c1, -⟩ := retain_spec p hm
    exact ⟨n, .unit, by simp [step, c1]⟩
  | clear => exact ⟨_, _, rfl⟩
  | extendValues vs =>
    obtain ⟨m', ks, h⟩ := extendValues_isSome vs hm (by simpa [Op.adds] using hroom)
    exact ⟨m', .keys ks, by simp [step, h]⟩
  | extendPairs kvs =>
    obtain ⟨n, c1, -⟩ := extendPairs_spec kvs hm hk
    exact ⟨n, .unit, by simp [step, c1]⟩

theorem run_cons_some {m m'' : IdMap V} {op : Op V} {ops : List (Op V)} {outs : List (Out V)} :
    run m (op :: ops) = some (m'', outs) ↔
      ∃ m' out outs', step m op = some (m', out) ∧ run m' ops = some (m'', outs') ∧
        outs = out :: outs' := by
  constructor
  · intro h
    simp only [run] at h
    cases h1 : step m op with
    | none => rw [h1] at h; simp at h
    | some r =>
      obtain ⟨m', out⟩ := r
      rw [h1] at h
      cases h2 : run m' ops with
      | none => simp [h2] at h
      | some r2 =>
        obtain ⟨a, b⟩ := r2
        simp [h2] at h
        exact ⟨m', out, b, rfl, by rw [h2, h.1], h.2.symm⟩
  · rintro ⟨m', out, outs', h1, h2, rfl⟩
    simp [run, h1, h2]

theorem run_some {m m' : IdMap V} {ops : List (Op V)} {outs : List (Out V)} (hm : m.WF)
    (hk : ∀ op ∈ ops, op.KeysOk) (h : run m ops = some (m', outs)) :
    m'.WF ∧ AbsRun m.get ops outs m'.get := by
  induction ops generalizing m outs with
  | nil =>
    simp only [run, Option.some.injEq, Prod.mk.injEq] at h
    obtain ⟨rfl, rfl⟩ := h
    exact ⟨hm, .nil _⟩
  | cons op ops ih =>
    obtain ⟨m1, out, outs', h1, h2, rfl⟩ := run_cons_some.1 h
    obtain ⟨a1, a2, -⟩ := step_some hm (hk op (by simp)) h1
    obtain ⟨b1, b2⟩ := ih a1 (fun o ho => hk o (by simp [ho])) h2
    exact ⟨b1, .cons a2 b2⟩

theorem run_isSome {m : IdMap V} {ops : List (Op V)} (hm : m.WF)
    (hk : ∀ op ∈ ops, op.KeysOk) (hroom : m.size + (ops.map Op.adds).sum ≤ idMax) :
    ∃ m' outs, run m ops = some (m', outs) := by
  induction ops generalizing m with
  | nil => exact ⟨m, [], rfl⟩
  | cons op ops ih =>
    simp only [List.map_cons, List.sum_cons] at hroom
    obtain ⟨m1, out, h1⟩ := step_isSome hm (hk op (by simp)) (by omega)
    obtain ⟨a1, -, a3⟩ := step_some hm (hk op (by simp)) h1
    obtain ⟨m2, outs, h2⟩ := ih a1 (fun o ho => hk o (by simp [ho])) (by omega)
    exact ⟨m2, out :: outs, run_cons_some.2 ⟨m1, out, outs, h1, h2, rfl⟩⟩

theorem Reachable.wf {m : IdMap V} (h : Reachable m) : m.WF := by
  obtain ⟨ops, outs, hk, hr⟩ := h
  exact (run_some WF.empty hk hr).1

theorem Reachable.step {m m' : IdMap V} {op : Op V} {out : Out V} (h : Reachable m)
    (hk : op.KeysOk) (hs : IdMapSpec.step m op = some (m', out)) : Reachable m' := by
  obtain ⟨ops, outs, hops, hr⟩ := h
  have key : ∀ (ops : List (Op V)) (m0 : IdMap V) (outs : List (Out V)), run m0 ops = some (m, outs) →
      run m0 (ops ++ [op]) = some (m', outs ++ [out]) := by
    intro ops
    induction ops with
    | nil =>
      intro m0 outs h
      simp only [run, Option.some.injEq, Prod.mk.injEq] at h
      obtain ⟨rfl, rfl⟩ := h
      exact run_cons_some.2 ⟨m', out, [], hs, rfl, rfl⟩
    | cons o ops ih =>
      intro m0 outs h
      obtain ⟨m1, out1, outs', h1, h2, rfl⟩ := run_cons_some.1 h
      exact run_cons_some.2 ⟨m1, out1, outs' ++ [out], h1, ih m1 outs' h2, rfl⟩
  refine ⟨ops ++ [op], outs ++ [out], ?_, key ops _ outs hr⟩
  intro o ho
  rcases List.mem_append.1 ho with ho | ho
  · exact hops o ho
  · rw [List.mem_singleton.1 ho]; exact hk

theorem AbsFill.facts {s s' : Abs V} {vs : List V} {ks : List Nat} (h : AbsFill s vs ks s') :
    ks.length = vs.length ∧ ks.Nodup ∧ (∀ k ∈ ks, s k = none ∧ k < idMax) ∧
      (∀ i (hi : i < ks.length) (hi' : i < vs.length), s' ks[i] = some vs[i]) ∧
      (∀ j, j ∉ ks → s' j = s j) := by
  induction h with
  | nil s => simp
  | @cons s v vs k ks s' h1 h2 h3 ih =>
    obtain ⟨a1, a2, a3, a4, a5⟩ := ih
    have hknot : k ∉ ks := by
      intro hc
      have := (a3 k hc).1
      simp at this
    refine ⟨by simp [a1], List.nodup_cons.2 ⟨hknot, a2⟩, ?_, ?_, ?_⟩
    · intro j hj
      rcases List.mem_cons.1 hj with rfl | hj
      · exact ⟨h1, h2⟩
      · have := a3 j hj
        have hne : j ≠ k := fun hc => hknot (hc ▸ hj)
        rw [Function.update_of_ne hne] at this
        exact this
    · intro i hi hi'
      cases i with
      | zero => simp only [List.getElem_cons_zero]; rw [a5 k hknot]; simp
      | succ i => simpa using a4 i (by simpa using hi) (by simpa using hi')
    · intro j hj
      simp only [List.mem_cons, not_or] at hj
      rw [a5 j hj.2, Function.update_of_ne hj.1]

theorem mem_iter {m : IdMap V} {k : Nat} {v : V} : (k, v) ∈ m.iter ↔ m.get k = some v := by
  simp only [IdMap.iter, List.mem_filterMap, List.mem_range, Option.map_eq_some_iff,
    Prod.mk.injEq]
  constructor
  · rintro ⟨a, -, w, hw, rfl, rfl⟩; exact hw
  · intro h; exact ⟨k, lt_of_get h, v, h, rfl, rfl⟩

theorem keys_eq {m : IdMap V} :
    m.keys = (List.range m.map.slots.length).filter fun i => (m.get i).isSome := by
  unfold IdMap.keys IdMap.iter StableVec.nextPushIndex
  generalize List.range m.map.slots.length = l
  induction l with
  | nil => rfl
  | cons a l ih =>
    cases h : m.get a with
    | none => simp [h, ih]
    | some v => simp [h, ih]

theorem length_keys {m : IdMap V} (hm : m.WF) : m.keys.length = m.size := by
  rw [keys_eq]
  have h1 := hm.free_length
  have h2 : m.free.Perm ((List.range m.map.slots.length).filter fun j => !(m.get j).isSome) := by
    apply (List.perm_ext_iff_of_nodup hm.nodup (List.Nodup.filter _ List.nodup_range)).2
    intro k; simp [hm.mem_free]
  have h3 := h2.length_eq
  have h4 := List.length_eq_length_filter_add (l := List.range m.map.slots.length)
    (fun j => (m.get j).isSome)
  simp only [List.length_range] at h4
  omega

theorem fromValues_slots (vs : List V) (s : StableVec V) :
    (vs.foldl (fun s v => (s.push v).1) s).slots = s.slots ++ vs.map some := by
  induction vs generalizing s with
  | nil => simp
  | cons v vs ih => rw [List.foldl_cons, ih]; simp [StableVec.push]

theorem fromValues_cap (vs : List V) (s : StableVec V) (h : s.slots.length ≤ s.cap) :
    (vs.foldl (fun s v => (s.push v).1) s).slots.length ≤
      (vs.foldl (fun s v => (s.push v).1) s).cap := by
  induction vs generalizing s with
  | nil => exact h
  | cons v vs ih => exact ih _ (by simp [StableVec.push])

theorem get_fromValues (vs : List V) (i : Nat) : (fromValues vs).get i = vs[i]? := by
  rw [get_def]
  show (vs.foldl (fun s v => (s.push v).1) StableVec.empty).slots[i]?.join = _
  rw [fromValues_slots]
  cases h : vs[i]? <;> simp [StableVec.empty, h]

theorem WF.fromValues (vs : List V) (h : vs.length ≤ idMax) : (fromValues vs).WF := by
  refine ⟨List.nodup_nil, ?_, fromValues_cap _ _ (by simp [StableVec.empty]), ?_⟩
  · intro k
    rw [get_fromValues]
    show k ∈ [] ↔ k < (vs.foldl (fun s v => (s.push v).1) StableVec.empty).slots.length ∧ _
    rw [fromValues_slots]
    simp [StableVec.empty]
  · show (vs.foldl (fun s v => (s.push v).1) StableVec.empty).slots.length ≤ _
    rw [fromValues_slots]
    simpa [StableVec.empty] using h

end Tet.IdMapSpec
