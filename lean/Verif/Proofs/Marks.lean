import Verif.Proofs.Star

/-!
# The flag-based traversals
-/

namespace Tet
open Spec
variable {P V T : Type}

/-- A sequence of calls simulated by another iterator. -/
theorem calls_sim {σ τ α : Type} {next : σ → Option (Option α × σ)} {next' : τ → Option (Option α × τ)}
    (f : σ → τ) (I : σ → Prop)
    (h : ∀ s a s', I s → next s = some (a, s') → next' (f s) = some (a, f s') ∧ I s') :
    ∀ n s as s', I s → calls next n s = some (as, s') → calls next' n (f s) = some (as, f s') ∧ I s'
  | 0, s, as, s', hI, hc => by
    simp only [calls, Option.some.injEq, Prod.mk.injEq] at hc
    obtain ⟨rfl, rfl⟩ := hc
    exact ⟨rfl, hI⟩
  | n + 1, s, as, s', hI, hc => by
    rw [calls] at hc
    obtain ⟨⟨a, s1⟩, h1, hc⟩ := Option.bind_eq_some_iff.1 hc
    obtain ⟨⟨as', s2⟩, h2, hc⟩ := Option.bind_eq_some_iff.1 hc
    cases hc
    obtain ⟨k1, k2⟩ := h _ _ _ hI h1
    obtain ⟨k3, k4⟩ := calls_sim f I h n s1 as' s' k2 h2
    exact ⟨by simp [calls, k1, k3], k4⟩

theorem mapIdx_id_of {α : Type} {f : Nat → α → α} {l : List α} (h : ∀ i a, l[i]? = some a → f i a = a) :
    l.mapIdx f = l := by
  apply List.ext_getElem?
  intro i
  rw [List.getElem?_mapIdx]
  cases hi : l[i]? with
  | none => rfl
  | some a => simp [h i a hi]

theorem modify_mapIdx {α : Type} {f g : Nat → α → α} {h : α → α} {l : List α} {k : Nat}
    (h1 : ∀ i a, i ≠ k → f i a = g i a) (h2 : ∀ a, h (f k a) = g k a) :
    (l.mapIdx f).modify k h = l.mapIdx g := by
  apply List.ext_getElem?
  intro i
  rw [List.getElem?_modify, List.getElem?_mapIdx, List.getElem?_mapIdx]
  by_cases hi : k = i
  · subst hi
    cases l[k]? <;> simp [h2]
  · cases l[i]? <;> simp [h1 i _ (Ne.symm hi), hi]

/-! ## Marking tets -/

/-- The mesh with the tets in `b` marked, and only those. -/
def markTets (m : Mesh P V T) (b : TId → Bool) : Mesh P V T :=
  { m with tets := ⟨⟨m.tets.map.slots.mapIdx fun k o => o.map (Mesh.flagTet (b k)), m.tets.map.cap⟩, m.tets.free⟩ }

theorem markTets_get (m : Mesh P V T) (b : TId → Bool) (k : TId) :
    (markTets m b).tets.get k = (m.tets.get k).map (Mesh.flagTet (b k)) := by
  show (m.tets.map.slots.mapIdx fun k o => o.map (Mesh.flagTet (b k)))[k]?.join = (m.tets.map.slots[k]?.join).map _
  rw [List.getElem?_mapIdx]
  cases m.tets.map.slots[k]? <;> rfl

theorem markTets_none {m : Mesh P V T}
    (h : ∀ k t, m.tets.get k = some t → t.flags.walkersFromVertex = false) :
    markTets m (fun _ => false) = m := by
  have : m.tets.map.slots.mapIdx (fun (_ : Nat) o => Option.map (Mesh.flagTet (T := T) false) o) = m.tets.map.slots := by
    apply mapIdx_id_of
    intro i o ho
    cases o with
    | none => rfl
    | some t =>
      have ht : m.tets.get i = some t := by
        show m.tets.map.slots[i]?.join = _
        rw [ho]; rfl
      have := h i t ht
      simp only [Option.map_some, Mesh.flagTet, ← this]
  rw [markTets, this]

theorem modTet_mark {m : Mesh P V T} {b : TId → Bool} {k : TId} (c : Bool) (hk : (m.tets.get k).isSome) :
    (markTets m b).modTet k (Mesh.flagTet c) = some (markTets m (Function.update b k c)) := by
  have : ((markTets m b).tets.get k).isSome := by rw [markTets_get]; simpa using hk
  rw [Mesh.modTet, if_pos this]
  congr 1
  simp only [markTets, IdMap.modify]
  congr 3
  apply modify_mapIdx
  · intro i a hi
    simp [Function.update_of_ne hi]
  · intro a
    cases a <;> simp [Mesh.flagTet]

theorem toAdj_mark (m : Mesh P V T) (b : TId → Bool) (w : Walker) : (markTets m b).toAdj w = m.toAdj w := by
  rw [Mesh.toAdj, markTets_get, Mesh.toAdj]
  cases m.tets.get w.tet <;> rfl

def walkersF (m : Mesh P V T) (s : Mesh.WalkersState) : Mesh.WalkersOptState P V T :=
  ⟨markTets m (fun k => decide (k ∈ s.visited)), s.visited.reverse, s.toSearch⟩

theorem walkers_sim {m : Mesh P V T} (visited : List TId) (hv : ∀ k ∈ visited, (m.tets.get k).isSome) :
    ∀ stack a s', m.walkersNextAux visited stack = some (a, s') →
      Mesh.walkersOptNext (walkersF m ⟨visited, stack⟩) = some (a, walkersF m s') ∧
        ∀ k ∈ s'.visited, (m.tets.get k).isSome
  | [], a, s', h => by
    simp only [Mesh.walkersNextAux, Option.some.injEq, Prod.mk.injEq] at h
    obtain ⟨rfl, rfl⟩ := h
    exact ⟨rfl, hv⟩
  | w :: rest, a, s', h => by
    have red : Mesh.walkersOptNext (walkersF m ⟨visited, w :: rest⟩) =
      Mesh.walkersOptNextAux (markTets m (fun k => decide (k ∈ visited))) visited.reverse (w :: rest) := rfl
    rw [Mesh.walkersNextAux] at h
    split_ifs at h with hw
    · obtain ⟨t, ht⟩ := Option.isSome_iff_exists.1 (hv _ hw)
      obtain ⟨ih1, ih2⟩ := walkers_sim visited hv rest a s' h
      refine ⟨?_, ih2⟩
      rw [red, Mesh.walkersOptNextAux, markTets_get, ht]
      simp only [Option.map_some, Option.bind_eq_bind, Option.bind_some, Mesh.flagTet, hw, decide_true, if_true]
      exact ih1
    · obtain ⟨x, h1, h⟩ := Option.bind_eq_some_iff.1 h
      obtain ⟨y, h2, h⟩ := Option.bind_eq_some_iff.1 h
      obtain ⟨z, h3, h⟩ := Option.bind_eq_some_iff.1 h
      cases h
      have hl : (m.tets.get w.tet).isSome := by
        simp only [Mesh.toAdj, Walker.perm, Option.map_eq_some_iff] at h1
        obtain ⟨t, ht, -⟩ := h1
        simp [ht]
      obtain ⟨t, ht⟩ := Option.isSome_iff_exists.1 hl
      refine ⟨?_, ?_⟩
      · rw [red, Mesh.walkersOptNextAux, markTets_get, ht]
        simp only [Option.map_some, Option.bind_eq_bind, Option.bind_some, Mesh.flagTet, hw, decide_false]
        rw [if_neg (by simp)]
        have := modTet_mark (b := fun k => decide (k ∈ visited)) true hl
        rw [this]
        simp only [Option.bind_some, toAdj_mark, h1, h2, h3]
        have e : Function.update (fun k => decide (k ∈ visited)) w.tet true = fun k => decide (k ∈ w.tet :: visited) := by
          funext k
          by_cases hk : k = w.tet
          · subst hk; simp
          · simp [Function.update_of_ne hk, hk]
        simp only [walkersF, e, List.reverse_cons]
        rfl
      · intro k hk
        rcases List.mem_cons.1 hk with rfl | hk
        · exact hl
        · exact hv k hk

theorem drop_marks {m : Mesh P V T} : ∀ (l : List TId) (b : TId → Bool), (∀ k ∈ l, (m.tets.get k).isSome) →
    l.foldlM (fun m k => m.modTet k (Mesh.flagTet false)) (markTets m b) =
      some (markTets m fun k => b k && decide (k ∉ l))
  | [], b, _ => by simp [List.foldlM]
  | k :: l, b, h => by
    rw [List.foldlM_cons, modTet_mark false (h k (by simp))]
    simp only [Option.bind_eq_bind, Option.bind_some]
    rw [drop_marks l _ fun k hk => h k (by simp [hk])]
    congr 2
    funext j
    by_cases hj : j = k
    · subst hj; simp
    · simp [Function.update_of_ne hj, hj]

theorem walkersF_drop {m : Mesh P V T} (hn : ∀ k t, m.tets.get k = some t → t.flags.walkersFromVertex = false)
    (s : Mesh.WalkersState) (hs : ∀ k ∈ s.visited, (m.tets.get k).isSome) :
    Mesh.walkersOptDrop (walkersF m s) = some m := by
  rw [Mesh.walkersOptDrop]
  show s.visited.reverse.foldlM _ (markTets m _) = _
  rw [drop_marks _ _ (by simpa using hs)]
  rw [← congrArg some (markTets_none hn)]
  congr 2
  funext k
  simp

/-! ## Marking vertices -/

def flagVertex (b : Bool) (x : Vertex P V) : Vertex P V := { x with flags := { x.flags with targets := b } }

/-- The mesh with the vertices in `b` marked, and only those. -/
def markVerts (m : Mesh P V T) (b : VId → Bool) : Mesh P V T :=
  { m with
    vertices := ⟨⟨m.vertices.map.slots.mapIdx fun k o => if k = GHOST then o else o.map (flagVertex (b k)),
      m.vertices.map.cap⟩, m.vertices.free⟩
    ghostFlags := { m.ghostFlags with targets := b GHOST } }

theorem markVerts_get (m : Mesh P V T) (b : VId → Bool) (k : VId) (hk : k ≠ GHOST) :
    (markVerts m b).vertices.get k = (m.vertices.get k).map (flagVertex (b k)) := by
  show (m.vertices.map.slots.mapIdx fun k o => if k = GHOST then o else o.map (flagVertex (b k)))[k]?.join =
    (m.vertices.map.slots[k]?.join).map _
  rw [List.getElem?_mapIdx]
  cases m.vertices.map.slots[k]? <;> simp [hk]

theorem markVerts_none {m : Mesh P V T}
    (h : ∀ v x, m.vertices.get v = some x → x.flags.targets = false) (hg : m.ghostFlags.targets = false) :
    markVerts m (fun _ => false) = m := by
  have : m.vertices.map.slots.mapIdx (fun (k : Nat) o => if k = GHOST then o else
      Option.map (flagVertex (P := P) (V := V) false) o) = m.vertices.map.slots := by
    apply mapIdx_id_of
    intro i o ho
    split_ifs
    · rfl
    cases o with
    | none => rfl
    | some t =>
      have ht : m.vertices.get i = some t := by
        show m.vertices.map.slots[i]?.join = _
        rw [ho]; rfl
      have := h i t ht
      simp only [Option.map_some, flagVertex, ← this]
  rw [markVerts, this, ← hg]

/-- The vertex has flags. -/
def HasFlags (m : Mesh P V T) (v : VId) : Prop := v = GHOST ∨ (m.vertices.get v).isSome

theorem setTargetFlag_mark {m : Mesh P V T} {b : VId → Bool} {v : VId} (c : Bool) (hv : HasFlags m v) :
    (markVerts m b).setTargetFlag v c = some (markVerts m (Function.update b v c)) := by
  rw [Mesh.setTargetFlag]
  by_cases hg : v = GHOST
  · rw [if_pos hg]
    subst hg
    have : (fun (k : Nat) (o : Option (Vertex P V)) => if k = GHOST then o else o.map (flagVertex (b k))) =
        fun k o => if k = GHOST then o else o.map (flagVertex (Function.update b GHOST c k)) := by
      funext k o
      split_ifs with h
      · rfl
      · rw [Function.update_of_ne h]
    simp only [markVerts, this, Function.update_self]
  · have hs := hv.resolve_left hg
    rw [if_neg hg, if_pos (by rw [markVerts_get _ _ _ hg]; simpa using hs)]
    congr 1
    simp only [markVerts, IdMap.modify, Function.update_of_ne (Ne.symm hg)]
    congr 3
    apply modify_mapIdx
    · intro i a hi
      simp [Function.update_of_ne hi]
    · intro a
      simp only [if_neg hg, Function.update_self]
      cases a <;> rfl

theorem targetFlag_mark {m : Mesh P V T} {b : VId → Bool} {v : VId} (hv : HasFlags m v) :
    (markVerts m b).targetFlag v = some (b v) := by
  rw [Mesh.targetFlag]
  by_cases hg : v = GHOST
  · rw [if_pos hg, hg]
    rfl
  · obtain ⟨x, hx⟩ := Option.isSome_iff_exists.1 (hv.resolve_left hg)
    rw [if_neg hg, markVerts_get _ _ _ hg, hx]
    rfl

theorem targetLoop_congr {m m' : Mesh P V T} (h : m.tets = m'.tets) (a : Walker) : ∀ n k l,
    m.targetLoop a n k l = m'.targetLoop a n k l
  | 0, _, _ => rfl
  | n + 1, k, l => by
    rw [Mesh.targetLoop, Mesh.targetLoop, Mesh.toAdj, Mesh.toAdj, h]
    cases Option.map (fun x : Tet T => x.adj (k.perm P3021).edge) (m'.tets.get (k.perm P3021).tet) with
    | none => rfl
    | some x =>
      simp only [Option.bind_eq_bind, Option.bind_some]
      split_ifs
      · exact targetLoop_congr h a n x _
      · rfl

def targetsF (m : Mesh P V T) (s : Mesh.TargetsState) : Mesh.TargetsOptState P V T :=
  ⟨markVerts m (fun k => decide (k ∈ s.visited)), s.visited.reverse, s.toSearch⟩

theorem ConsistentT.hasFlags {m : Mesh P V T} (hm : ConsistentT m) {w : Walker} {v : VId}
    (h : m.second w = some v) : HasFlags m v := by
  simp only [Mesh.second, Option.map_eq_some_iff] at h
  obtain ⟨t, ht, rfl⟩ := h
  rcases hm.vlive _ _ (secondIdx w.edge) ht with h | ⟨x, t', h, -⟩
  · exact .inl h
  · exact .inr (Option.isSome_iff_exists.2 ⟨x, h⟩)

theorem targets_sim {m : Mesh P V T} (hm : ConsistentT m) (fuel : Nat) (visited : List VId)
    (hv : ∀ k ∈ visited, HasFlags m k) :
    ∀ stack a s', m.targetsNextAux fuel visited stack = some (a, s') →
      Mesh.targetsOptNext fuel (targetsF m ⟨visited, stack⟩) = some (a, targetsF m s') ∧
        ∀ k ∈ s'.visited, HasFlags m k
  | [], a, s', h => by
    simp only [Mesh.targetsNextAux, Option.some.injEq, Prod.mk.injEq] at h
    obtain ⟨rfl, rfl⟩ := h
    exact ⟨rfl, hv⟩
  | w :: rest, a, s', h => by
    have red : Mesh.targetsOptNext fuel (targetsF m ⟨visited, w :: rest⟩) =
      Mesh.targetsOptNextAux (markVerts m (fun k => decide (k ∈ visited))) fuel visited.reverse (w :: rest) := rfl
    rw [Mesh.targetsNextAux] at h
    obtain ⟨u, hu, h⟩ := Option.bind_eq_some_iff.1 h
    have hf := hm.hasFlags hu
    have hu' : (markVerts m (fun k => decide (k ∈ visited))).second w = some u := hu
    split_ifs at h with hw
    · obtain ⟨ih1, ih2⟩ := targets_sim hm fuel visited hv rest a s' h
      refine ⟨?_, ih2⟩
      rw [red, Mesh.targetsOptNextAux, hu']
      simp only [Option.bind_eq_bind, Option.bind_some, targetFlag_mark hf, hw, decide_true, if_true]
      exact ih1
    · obtain ⟨x, h1, h⟩ := Option.bind_eq_some_iff.1 h
      obtain ⟨y, h2, h⟩ := Option.bind_eq_some_iff.1 h
      cases h
      refine ⟨?_, ?_⟩
      · rw [red, Mesh.targetsOptNextAux, hu']
        simp only [Option.bind_eq_bind, Option.bind_some, targetFlag_mark hf, hw, decide_false]
        rw [if_neg (by simp), setTargetFlag_mark true hf]
        simp only [Option.bind_some]
        have h1' : (markVerts m (Function.update (fun k => decide (k ∈ visited)) u true)).toAdj w = some x := h1
        rw [h1']
        simp only [Option.bind_some]
        rw [targetLoop_congr (m := markVerts m _) (m' := m) rfl, h2]
        have e : Function.update (fun k => decide (k ∈ visited)) u true = fun k => decide (k ∈ u :: visited) := by
          funext k
          by_cases hk : k = u
          · subst hk; simp
          · simp [Function.update_of_ne hk, hk]
        simp only [targetsF, e, List.reverse_cons]
        rfl
      · intro k hk
        rcases List.mem_cons.1 hk with rfl | hk
        · exact hf
        · exact hv k hk

theorem drop_vmarks {m : Mesh P V T} : ∀ (l : List VId) (b : VId → Bool), (∀ k ∈ l, HasFlags m k) →
    l.foldlM (fun m v => m.setTargetFlag v false) (markVerts m b) =
      some (markVerts m fun k => b k && decide (k ∉ l))
  | [], b, _ => by simp [List.foldlM]
  | k :: l, b, h => by
    rw [List.foldlM_cons, setTargetFlag_mark false (h k (by simp))]
    simp only [Option.bind_eq_bind, Option.bind_some]
    rw [drop_vmarks l _ fun k hk => h k (by simp [hk])]
    congr 2
    funext j
    by_cases hj : j = k
    · subst hj; simp
    · simp [Function.update_of_ne hj, hj]

theorem targetsF_drop {m : Mesh P V T} (hn : ∀ v x, m.vertices.get v = some x → x.flags.targets = false)
    (hg : m.ghostFlags.targets = false)
    (s : Mesh.TargetsState) (hs : ∀ k ∈ s.visited, HasFlags m k) :
    Mesh.targetsOptDrop (targetsF m s) = some m := by
  rw [Mesh.targetsOptDrop]
  show s.visited.reverse.foldlM _ (markVerts m _) = _
  rw [drop_vmarks _ _ (by simpa using hs)]
  rw [← congrArg some (markVerts_none hn hg)]
  congr 2
  funext k
  simp

/-! ## Searching -/

theorem Spec.Yields.step {σ α : Type} {next : σ → Option (Option α × σ)} {s : σ} {l : List α}
    (h : Yields next s l) : ∃ s', next s = some (l.head?, s') ∧ Yields next s' l.tail := by
  have step : ∀ n, ∃ s' s'', next s = some (l.head?, s') ∧
      calls next n s' = some ((List.range n).map (l.tail[·]?), s'') := by
    intro n
    obtain ⟨s'', h1⟩ := h (n + 1)
    rw [calls, List.range_succ_eq_map] at h1
    obtain ⟨⟨b, s'⟩, h2, h1⟩ := Option.bind_eq_some_iff.1 h1
    obtain ⟨⟨bs, s3⟩, h3, h1⟩ := Option.bind_eq_some_iff.1 h1
    simp only [List.map_cons, List.map_map, Option.pure_def, Option.some.injEq, Prod.mk.injEq,
      List.cons.injEq] at h1
    refine ⟨s', s'', ?_, ?_⟩
    · rw [h2, h1.1.1, List.head?_eq_getElem?]
    · rw [h3, h1.2, h1.1.2]
      simp [Function.comp_def, List.getElem?_tail]
  obtain ⟨s', -, h1, -⟩ := step 0
  refine ⟨s', h1, fun n => ?_⟩
  obtain ⟨s1, s2, h2, h3⟩ := step n
  rw [h1] at h2
  cases h2
  exact ⟨s2, h3⟩

theorem Spec.Yields.uncons {σ α : Type} {next : σ → Option (Option α × σ)} {s : σ} {a : α} {l : List α}
    (h : Yields next s (a :: l)) : ∃ s', next s = some (some a, s') ∧ Yields next s' l := h.step

theorem Spec.Yields.unnil {σ α : Type} {next : σ → Option (Option α × σ)} {s : σ}
    (h : Yields next s []) : ∃ s', next s = some (none, s') ∧ Yields next s' [] := h.step

/-- Mapping the results with a function that may fail on others. -/
theorem Spec.Yields.mapM {σ α β : Type} {next : σ → Option (Option α × σ)}
    {next' : σ → Option (Option β × σ)} {f : α → Option β}
    (hnone : ∀ s s', next s = some (none, s') → next' s = some (none, s'))
    (hsome : ∀ s a b s', next s = some (some a, s') → f a = some b → next' s = some (some b, s')) :
    ∀ (l : List α) (r : List β) (s : σ), Yields next s l → l.map f = r.map some → Yields next' s r
  | [], r, s, hy, hr => by
    obtain rfl : r = [] := by simpa using hr.symm
    intro n
    induction n generalizing s with
    | zero => exact ⟨s, rfl⟩
    | succ n ih =>
      obtain ⟨s', h1, h2⟩ := hy.unnil
      obtain ⟨s'', h3⟩ := ih s' h2
      refine ⟨s'', ?_⟩
      rw [calls, hnone _ _ h1]
      simp only [Option.bind_eq_bind, Option.bind_some, h3, List.range_succ_eq_map]
      simp [Function.comp_def]
  | a :: l, r, s, hy, hr => by
    obtain ⟨s', h1, h2⟩ := hy.uncons
    cases r with
    | nil => simp at hr
    | cons b r =>
      simp only [List.map_cons, List.cons.injEq] at hr
      exact Yields.cons (hsome _ _ _ _ h1 hr.1) (Yields.mapM hnone hsome l r s' h2 hr.2)

/-- An iterator that succeeds wherever another does. -/
theorem Spec.Yields.mono {σ α : Type} {next next' : σ → Option (Option α × σ)}
    (h : ∀ s r, next s = some r → next' s = some r) {s : σ} {l : List α} (hy : Yields next s l) :
    Yields next' s l := by
  have : Yields next' s (l.map id) := hy.map (f := id) fun s a s' ha => by simpa using h _ _ ha
  simpa using this

theorem firstHit_eq {σ α β : Type} {next : σ → Option (Option α × σ)} {hit : α → Option (Option β)}
    {f : α → Option β} : ∀ (l : List α) (n : Nat) (s : σ), Yields next s l →
    (∀ a ∈ l, hit a = some (f a)) → l.length < n → Mesh.firstHit next hit n s = some (l.findSome? f)
  | _, 0, _, _, _, h => by omega
  | [], n + 1, s, hy, _, _ => by
    obtain ⟨s', h, -⟩ := hy.unnil
    simp [Mesh.firstHit, h]
  | a :: l, n + 1, s, hy, hh, hn => by
    obtain ⟨s', h, hy'⟩ := hy.uncons
    rw [Mesh.firstHit, h]
    simp only [Option.bind_eq_bind, Option.bind_some, hh a (by simp)]
    rw [List.findSome?_cons]
    cases f a with
    | none => exact firstHit_eq l n s' hy' (fun a ha => hh a (by simp [ha])) (by simpa using hn)
    | some b => rfl

end Tet
