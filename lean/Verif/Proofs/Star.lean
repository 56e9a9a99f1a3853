import Verif.Proofs.Iter

/-!
# Traversals of the tets and edges at a vertex
-/

namespace Tet
open Spec
variable {P V T : Type}

theorem live_iff {m : Mesh P V T} {w : Walker} : Live m w ↔ ∃ a b c d, m.tet4 w = some (a, b, c, d) := by
  rw [Live, Option.isSome_iff_exists]
  constructor
  · rintro ⟨t, ht⟩
    exact ⟨_, _, _, _, Mesh.tet4_iff.2 ⟨t, ht, rfl⟩⟩
  · rintro ⟨a, b, c, d, h⟩
    obtain ⟨t, ht, -⟩ := Mesh.tet4_iff.1 h
    exact ⟨t, ht⟩

theorem first_tet4 {m : Mesh P V T} {w : Walker} {a : VId} (h : m.first w = some a) :
    ∃ b c d, m.tet4 w = some (a, b, c, d) := by
  simp only [Mesh.first, Option.map_eq_some_iff] at h
  obtain ⟨t, ht, rfl⟩ := h
  exact ⟨_, _, _, Mesh.tet4_iff.2 ⟨t, ht, rfl⟩⟩

theorem edge_tet4 {m : Mesh P V T} {w : Walker} {a b : VId} (h : m.edge w = some (a, b)) :
    ∃ c d, m.tet4 w = some (a, b, c, d) := by
  simp only [Mesh.edge, Option.map_eq_some_iff, Tet.edge, Prod.mk.injEq] at h
  obtain ⟨t, ht, rfl, rfl⟩ := h
  exact ⟨_, _, Mesh.tet4_iff.2 ⟨t, ht, rfl⟩⟩

theorem tet4_second {m : Mesh P V T} {w : Walker} {a b c d : VId} (h : m.tet4 w = some (a, b, c, d)) :
    m.second w = some b := by
  obtain ⟨t, ht, h⟩ := Mesh.tet4_iff.1 h
  simp only [Tet.tet, Prod.mk.injEq] at h
  simp [Mesh.second, ht, h.2.1]

theorem tet4_live {m : Mesh P V T} {w : Walker} {q : V4} (h : m.tet4 w = some q) :
    (m.tets.get w.tet).isSome := by
  obtain ⟨t, ht, h⟩ := Mesh.tet4_iff.1 h
  simp [ht]

theorem live_finite (m : Mesh P V T) : {w | Live m w}.Finite := by
  refine Set.Finite.subset ((m.tets.keys.toFinset ×ˢ (Finset.univ : Finset Code)).image
    (fun x => (⟨x.1, x.2⟩ : Walker))).finite_toSet ?_
  intro w hw
  simp only [Finset.coe_image, Set.mem_image, Finset.mem_coe]
  exact ⟨(w.tet, w.edge), Finset.mem_product.2 ⟨List.mem_toFinset.2 (IdMap.mem_keys.2 hw), Finset.mem_univ _⟩, rfl⟩

/-! ## The ring of an edge -/

theorem ConsistentT.adj_back {m : Mesh P V T} (hm : ConsistentT m) {w w' : Walker}
    (h : m.toAdj w = some w') : m.toAdj w' = some w := by
  simp only [Mesh.toAdj, Option.map_eq_some_iff] at h
  obtain ⟨t, ht, rfl⟩ := h
  obtain ⟨u, h1, h2, -⟩ := hm.adj _ t w.edge ht
  simp only [Mesh.toAdj, h1, Option.map_some, h2]

theorem Walker.twin_twin (w : Walker) : w.twin.twin = w := by
  simp only [Walker.twin, Tet.twin_twin]

theorem ConsistentT.ring_inj {m : Mesh P V T} (hm : ConsistentT m) {w w' x : Walker}
    (h : m.ringStep w = some x) (h' : m.ringStep w' = some x) : w = w' := by
  have h1 := hm.adj_back h
  have h2 := hm.adj_back h'
  rw [h1] at h2
  have := Option.some.inj h2
  rw [← w.twin_twin, this, w'.twin_twin]

theorem ConsistentT.ring_live {m : Mesh P V T} (hm : ConsistentT m) {w : Walker} (h : Live m w) :
    ∃ w', Live m w' ∧ m.ringStep w = some w' := by
  obtain ⟨a, b, c, d, h⟩ := live_iff.1 h
  obtain ⟨w', h1, h2⟩ := hm.adj_tri (tet4_parts (tet4_twin h)).2.2.2
  obtain ⟨e, h3⟩ := tri_tet4 h2
  exact ⟨w', live_iff.2 ⟨_, _, _, _, h3⟩, h1⟩

theorem edgeRing_yields {m : Mesh P V T} (hm : ConsistentT m) {w : Walker} (hw : Live m w) :
    ∃ l, Yields m.edgeRingNext (CircIter.new w) (w :: l) ∧ RunsThrough m.ringStep w l ∧ (w :: l).Nodup ∧
      (∀ x ∈ w :: l, Live m x) ∧ ∀ x, x ∈ w :: l ↔ SameRing m w x := by
  obtain ⟨l, h1, h2, h3⟩ := exists_runsThrough (next := m.ringStep) (live_finite m)
    (fun x hx => hm.ring_live hx) (fun x hx y hy h => by
      obtain ⟨x', -, hx'⟩ := hm.ring_live hx
      exact hm.ring_inj hx' (h ▸ hx')) hw
  refine ⟨l, ?_, h1, h2, ?_, ?_⟩
  · have := circ_yields (fun _ => some ()) m.ringStep (fun _ => ()) w w l h1 (List.nodup_cons.1 h2).1 (by simp)
    have := this.map (next' := m.edgeRingNext) (f := (·.1)) (fun s a s' h => by
      simp [Mesh.edgeRingNext, h])
    rw [List.map_map] at this
    simpa [Function.comp_def, CircIter.new] using this
  · intro x hx
    rcases List.mem_cons.1 hx with rfl | hx
    · exact hw
    · exact h3 x hx
  · intro x
    constructor
    · intro hx
      rw [RunsThrough] at h1
      -- every element is reached by steps
      have : ∀ (l : List Walker) (a : Walker), SameRing m w a →
          List.IsChain (fun x y => m.ringStep x = some y) (a :: l) → ∀ x ∈ a :: l, SameRing m w x := by
        intro l
        induction l with
        | nil => intro a ha _ x hx; simp at hx; exact hx ▸ ha
        | cons b l ih =>
          intro a ha hc x hx
          rw [List.isChain_cons_cons] at hc
          rcases List.mem_cons.1 hx with rfl | hx
          · exact ha
          · exact ih b (.step ha hc.1) hc.2 x hx
      exact this (l ++ [w]) w (.refl _) (by simpa using h1) x (by
        simp only [List.mem_cons, List.mem_append] at hx ⊢; tauto)
    · intro h
      induction h with
      | refl => simp
      | step _ hs ih =>
        obtain ⟨y, hy, h⟩ := h1.succ ih
        rw [Mesh.ringStep, hs] at h
        cases h
        exact hy
      | back _ hs ih =>
        obtain ⟨y, hy, h⟩ := h1.pred ih
        rw [hm.ring_inj (x := _) hs h]
        exact hy

/-! ## Tets at a vertex -/

/-- The three neighbours across the triangles at the first vertex. -/
def starSucc (m : Mesh P V T) (w : Walker) : Option (List Walker) := do
  let a ← m.toAdj (w.perm P1032)
  let b ← m.toAdj (w.perm P2013)
  let c ← m.toAdj (w.perm P3021)
  return [c, b, a]

theorem walkersNextAux_eq (m : Mesh P V T) (visited : List TId) : ∀ stack : List Walker,
    m.walkersNextAux visited stack = (dfsNext (fun w : Walker => some w.tet) (starSucc m) visited stack).map
      fun r => (r.1, ⟨r.2.1, r.2.2⟩)
  | [] => rfl
  | w :: rest => by
    rw [Mesh.walkersNextAux, dfsNext]
    by_cases h : w.tet ∈ visited
    · simp [h, walkersNextAux_eq m visited rest]
    · simp only [h, if_false, Option.bind_eq_bind, Option.bind_some, starSucc]
      cases m.toAdj (w.perm P1032) <;> [rfl; cases m.toAdj (w.perm P2013) <;> [rfl; cases m.toAdj (w.perm P3021) <;> rfl]]

/-- Changing the representation of the states. -/
theorem Spec.Yields.conj {σ τ α : Type} {next : σ → Option (Option α × σ)} {next' : τ → Option (Option α × τ)}
    (f : σ → τ) (h : ∀ s, next' (f s) = (next s).map fun r => (r.1, f r.2)) {s : σ} {l : List α}
    (hy : Yields next s l) : Yields next' (f s) l := by
  have key : ∀ n s, calls next' n (f s) = (calls next n s).map fun r => (r.1, f r.2) := by
    intro n
    induction n with
    | zero => intro s; rfl
    | succ n ih =>
      intro s
      rw [calls, calls, h]
      cases next s with
      | none => rfl
      | some r =>
        simp only [Option.map_some, Option.bind_eq_bind, Option.bind_some, ih]
        cases calls next n r.2 <;> rfl
  intro n
  obtain ⟨s', h'⟩ := hy n
  exact ⟨f s', by rw [key, h']; rfl⟩

theorem ConsistentT.starSucc_of {m : Mesh P V T} (hm : ConsistentT m) {w : Walker} {v : VId}
    (h : m.first w = some v) : ∃ a b c, m.toAdj (w.perm P1032) = some a ∧ m.toAdj (w.perm P2013) = some b ∧
      m.toAdj (w.perm P3021) = some c ∧ starSucc m w = some [c, b, a] ∧
      m.first a = some v ∧ m.first b = some v ∧ m.first c = some v := by
  obtain ⟨p, q, r, h⟩ := first_tet4 h
  obtain ⟨a, a1, a2⟩ := hm.adj_tri (tet4_parts (tet4_perm h P1032)).2.2.2
  obtain ⟨b, b1, b2⟩ := hm.adj_tri (tet4_parts (tet4_perm h P2013)).2.2.2
  obtain ⟨c, c1, c2⟩ := hm.adj_tri (tet4_parts (tet4_perm h P3021)).2.2.2
  obtain ⟨_, a3⟩ := tri_tet4 a2
  obtain ⟨_, b3⟩ := tri_tet4 b2
  obtain ⟨_, c3⟩ := tri_tet4 c2
  exact ⟨a, b, c, a1, b1, c1, by simp [starSucc, a1, b1, c1], (tet4_parts a3).1, (tet4_parts b3).1, (tet4_parts c3).1⟩

/-- Which tets are across the triangles at the first vertex does not depend on the walker. -/
theorem ConsistentT.cross_star {m : Mesh P V T} (hm : ConsistentT m) {w w1 w' a b c : Walker} {v : VId}
    (h : m.first w = some v) (h1 : m.first w1 = some v) (ht : w.tet = w1.tet) (hx : m.toAdj w1 = some w')
    (ha : m.toAdj (w.perm P1032) = some a) (hb : m.toAdj (w.perm P2013) = some b)
    (hc : m.toAdj (w.perm P3021) = some c) : w'.tet = a.tet ∨ w'.tet = b.tet ∨ w'.tet = c.tet := by
  simp only [Mesh.first, Option.map_eq_some_iff] at h h1
  obtain ⟨t, k1, k2⟩ := h
  obtain ⟨t', k3, k4⟩ := h1
  rw [← ht, k1] at k3
  cases k3
  have e1 : firstIdx w.edge = firstIdx w1.edge := hm.distinct _ _ k1 (k2.trans k4.symm)
  have : ∀ e e', firstIdx e = firstIdx e' → face e' = face (toPerm e P1032) ∨ face e' = face (toPerm e P2013) ∨
      face e' = face (toPerm e P3021) := by decide
  simp only [Mesh.toAdj, Walker.perm, k1, ← ht, Option.map_some, Option.some.injEq] at hx ha hb hc
  rw [← hx, ← ha, ← hb, ← hc]
  simp only [Tet.adj_tet]
  rcases this _ _ e1 with h | h | h <;> rw [h] <;> simp

theorem walkers_yields {m : Mesh P V T} (hm : ConsistentT m) {v : VId} {w : Walker} (hw : m.first w = some v) :
    ∃ ws, Yields m.walkersNext ⟨[], [w]⟩ ws ∧ (∀ x ∈ ws, m.first x = some v) ∧ (ws.map Walker.tet).Nodup ∧
      ∀ k, k ∈ ws.map Walker.tet ↔ StarReach m v w.tet k := by
  have hkey : ∀ x, (m.first x = some v ∧ StarReach m v w.tet x.tet) →
      ∃ k ∈ m.tets.keys.toFinset, (fun w : Walker => some w.tet) x = some k := by
    rintro x ⟨hx, -⟩
    obtain ⟨b, c, d, hx⟩ := first_tet4 hx
    exact ⟨x.tet, List.mem_toFinset.2 (IdMap.mem_keys.2 (tet4_live hx)), rfl⟩
  have hsucc : ∀ x, (m.first x = some v ∧ StarReach m v w.tet x.tet) → ∃ l, starSucc m x = some l ∧
      ∀ y ∈ l, m.first y = some v ∧ StarReach m v w.tet y.tet := by
    rintro x ⟨hx, hr⟩
    obtain ⟨a, b, c, a1, b1, c1, hs, a2, b2, c2⟩ := hm.starSucc_of hx
    have rot : ∀ p y, m.toAdj (x.perm p) = some y → (∃ z, z.tet = x.tet ∧ m.first z = some v ∧
        m.toAdj z = some (if z = x.perm p then y else if z = (x.perm p).nfe then y.pfe else y.nfe)) →
        StarReach m v w.tet y.tet := by
      rintro p y hy ⟨z, hz, hz1, hz2⟩
      have := StarReach.cross (hz ▸ hr) hz1 hz2
      split_ifs at this <;> exact this
    obtain ⟨p, q, r, h⟩ := first_tet4 hx
    refine ⟨_, hs, ?_⟩
    intro y hy
    simp only [List.mem_cons, List.not_mem_nil, or_false] at hy
    have n1 : ∀ u : Walker, u.nfe ≠ u := by
      intro u hu
      have : ∀ e : Code, nfe e ≠ e := by decide
      exact this u.edge (Walker.mk.inj hu).2
    have key : ∀ p y, m.toAdj (x.perm p) = some y → m.first (x.perm p).nfe = some v →
        StarReach m v w.tet y.tet := by
      intro p y hy hf
      refine rot p y hy ⟨(x.perm p).nfe, rfl, hf, ?_⟩
      rw [if_neg (n1 _), if_pos rfl, Mesh.toAdj_nfe, hy]
      rfl
    have nf : ∀ {u : Walker} {a b c d}, m.tet4 u = some (a, b, c, d) → m.first u.nfe = some b := by
      intro u a b c d hu
      rw [(walker_moves u).1]
      exact (tet4_parts (tet4_perm hu P1203)).1
    rcases hy with rfl | rfl | rfl
    · exact ⟨c2, key _ _ c1 (nf (tet4_perm h P3021))⟩
    · exact ⟨b2, key _ _ b1 (nf (tet4_perm h P2013))⟩
    · exact ⟨a2, key _ _ a1 (nf (tet4_perm h P1032))⟩
  obtain ⟨ws, h1, h2, h3, -, h5, h6⟩ := dfs_yields hkey hsucc _ [] [w] le_rfl
    (by simpa using ⟨hw, StarReach.refl⟩)
  refine ⟨ws, ?_, fun x hx => (h2 x hx).1, ?_, ?_⟩
  · exact h1.conj (next' := m.walkersNext) (fun s => (⟨s.1, s.2⟩ : Mesh.WalkersState)) (fun s => by exact walkersNextAux_eq m s.1 s.2)
  · rw [List.Nodup, List.pairwise_map]
    exact h3.imp fun h e => h (congrArg some e)
  · intro k
    simp only [List.mem_map]
    constructor
    · rintro ⟨x, hx, rfl⟩
      exact (h2 x hx).2
    · intro hk
      induction hk with
      | refl =>
        rcases h5 w (by simp) with ⟨x, hx, h⟩ | h
        · exact ⟨x, hx, Option.some.inj h⟩
        · simp at h
      | @cross x x' hr hf hx ih =>
        obtain ⟨y, hy, hyt⟩ := ih
        obtain ⟨a, b, c, a1, b1, c1, hs, -⟩ := hm.starSucc_of (h2 y hy).1
        have inn : ∀ z ∈ [c, b, a], ∃ u ∈ ws, u.tet = z.tet := by
          intro z hz
          rcases h6 y hy _ hs z hz with ⟨u, hu, h⟩ | h
          · exact ⟨u, hu, Option.some.inj h⟩
          · simp at h
        rcases hm.cross_star (h2 y hy).1 hf hyt hx a1 b1 c1 with h | h | h <;> rw [h] <;> apply inn <;> simp

/-! ## Edges at a vertex -/

theorem targetLoop_append (m : Mesh P V T) (start : Walker) : ∀ (n : Nat) (adj : Walker) (l r : List Walker),
    m.targetLoop start n adj (l ++ r) = (m.targetLoop start n adj l).map (· ++ r)
  | 0, _, _, _ => rfl
  | n + 1, adj, l, r => by
    rw [Mesh.targetLoop, Mesh.targetLoop]
    cases m.toAdj (adj.perm P3021) with
    | none => rfl
    | some x =>
      simp only [Option.bind_eq_bind, Option.bind_some]
      split_ifs with h
      · rw [← List.cons_append]
        exact targetLoop_append m start n x (adj :: l) r
      · rfl

def targetSucc (m : Mesh P V T) (fuel : Nat) (w : Walker) : Option (List Walker) := do
  let adj ← m.toAdj w
  m.targetLoop adj.nfe fuel adj.nfe []

theorem targetsNextAux_eq (m : Mesh P V T) (fuel : Nat) (visited : List VId) : ∀ stack : List Walker,
    m.targetsNextAux fuel visited stack = (dfsNext m.second (targetSucc m fuel) visited stack).map
      fun r => (r.1, ⟨r.2.1, r.2.2⟩)
  | [] => rfl
  | w :: rest => by
    rw [Mesh.targetsNextAux, dfsNext]
    cases m.second w with
    | none => rfl
    | some k =>
      simp only [Option.bind_eq_bind, Option.bind_some]
      by_cases h : k ∈ visited
      · simp [h, targetsNextAux_eq m fuel visited rest]
      · simp only [h, if_false, targetSucc]
        cases m.toAdj w with
        | none => rfl
        | some a =>
          simp only [Option.bind_eq_bind, Option.bind_some]
          have := targetLoop_append m a.nfe fuel a.nfe [] rest
          rw [List.nil_append] at this
          rw [this]
          cases m.targetLoop a.nfe fuel a.nfe [] <;> rfl

/-- The loop collects the elements of the cycle. -/
theorem targetLoop_cycle (m : Mesh P V T) (a : Walker) : ∀ (l : List Walker) (k : Walker) (n : Nat) (acc : List Walker),
    List.IsChain (fun x y => m.toAdj (Walker.perm x P3021) = some y) (k :: l ++ [a]) → a ∉ l → l.length < n →
    m.targetLoop a n k acc = some ((k :: l).reverse ++ acc)
  | _, _, 0, _, _, _, h => by omega
  | [], k, n + 1, acc, hc, _, _ => by
    have : m.toAdj (k.perm P3021) = some a := by simpa using hc
    simp [Mesh.targetLoop, this]
  | b :: l, k, n + 1, acc, hc, ha, hn => by
    have hb : m.toAdj (k.perm P3021) = some b ∧
      List.IsChain (fun x y => m.toAdj (Walker.perm x P3021) = some y) (b :: l ++ [a]) := by simpa using hc
    have : b ≠ a := fun h => ha (by simp [h])
    have ih := targetLoop_cycle m a l b n (k :: acc) hb.2 (fun h => ha (by simp [h])) (by simpa using hn)
    simp [Mesh.targetLoop, hb.1, this, ih]

theorem perm3021_inv (w : Walker) : (w.perm P3021).perm P1320 = w := by
  have : ∀ e, toPerm (toPerm e P3021) P1320 = e := by decide
  simp only [Walker.perm, this]

theorem target_step {m : Mesh P V T} (hm : ConsistentT m) {v u x y : VId} {w : Walker}
    (h : m.tet4 w = some (v, x, u, y)) : ∃ w' z, m.toAdj (w.perm P3021) = some w' ∧
      m.tet4 w' = some (v, y, u, z) := by
  obtain ⟨w', h1, h2⟩ := hm.adj_tri (tet4_parts (tet4_perm h P3021)).2.2.2
  obtain ⟨z, h3⟩ := tri_tet4 h2
  exact ⟨w', z, h1, h3⟩

/-- The cycle of walkers with first vertex `v` and third vertex `u`. -/
theorem target_cycle {m : Mesh P V T} (hm : ConsistentT m) {v u x y : VId} {w : Walker}
    (h : m.tet4 w = some (v, x, u, y)) : ∃ l, RunsThrough (fun w => m.toAdj (Walker.perm w P3021)) w l ∧
      (w :: l).Nodup ∧ ∀ w', w' ∈ w :: l ↔ ∃ x y, m.tet4 w' = some (v, x, u, y) := by
  have hinj : ∀ a b c : Walker, m.toAdj (a.perm P3021) = some c → m.toAdj (b.perm P3021) = some c → a = b := by
    intro a b c ha hb
    have h1 := hm.adj_back ha
    have h2 := hm.adj_back hb
    rw [h1] at h2
    rw [← perm3021_inv a, Option.some.inj h2, perm3021_inv]
  obtain ⟨l, h1, h2, h3⟩ := exists_runsThrough (next := fun w => m.toAdj (Walker.perm w P3021))
    (S := {w' | ∃ x y, m.tet4 w' = some (v, x, u, y)})
    ((live_finite m).subset fun w' ⟨x, y, h⟩ => live_iff.2 ⟨_, _, _, _, h⟩)
    (by
      rintro a ⟨x, y, ha⟩
      obtain ⟨b, z, h1, h2⟩ := target_step hm ha
      exact ⟨b, ⟨_, _, h2⟩, h1⟩)
    (by
      rintro a ⟨x, y, ha⟩ b - hab
      obtain ⟨c, z, h1, h2⟩ := target_step hm ha
      exact hinj a b c h1 (hab ▸ h1)) (a := w) ⟨_, _, h⟩
  refine ⟨l, h1, h2, fun w' => ⟨?_, ?_⟩⟩
  · intro hw'
    rcases List.mem_cons.1 hw' with rfl | hw'
    · exact ⟨_, _, h⟩
    · exact h3 _ hw'
  · rintro ⟨x', y', hw'⟩
    -- the directed edge `(v, u)` of both walkers has one ring
    have hring := hm.toSpec.oneRing (w.perm P0231) (w'.perm P0231) (v, u)
      (tet4_parts (tet4_perm h P0231)).2.2.1 (tet4_parts (tet4_perm hw' P0231)).2.2.1
    have key : ∀ z, SameRing m (w.perm P0231) z → ∃ z' ∈ w :: l, z = z'.perm P0231 := by
      intro z hz
      have conv : ∀ a b : Walker, m.toAdj (a.perm P0231).twin = some (b.perm P0231) → Live m a → 
          m.toAdj (b.perm P3021) = some a := by
        intro a b hab ha
        obtain ⟨p, q, r, s, ha⟩ := live_iff.1 ha
        have t1 := tet4_perm ha P0231
        obtain ⟨c, c1, c2⟩ := hm.adj_tri (tet4_parts (tet4_twin t1)).2.2.2
        rw [hab] at c1
        cases c1
        obtain ⟨d, c3⟩ := tri_tet4 c2
        have c4 := tet4_perm c3 P0312
        have e1 : (b.perm P0231).perm P0312 = b := by
          have : ∀ e, toPerm (toPerm e P0231) P0312 = e := by decide
          simp only [Walker.perm, this]
        rw [e1] at c4
        exact hm.toAdj_of_tri (tet4_parts (tet4_perm c4 P3021)).2.2.2 (tet4_parts ha).2.2.2
      have e2 : ∀ c : Walker, (c.perm P0312).perm P0231 = c := by
        intro c
        have : ∀ e, toPerm (toPerm e P0312) P0231 = e := by decide
        simp only [Walker.perm, this]
      have liv : ∀ z ∈ w :: l, Live m z := by
        intro z hz
        rcases List.mem_cons.1 hz with rfl | hz
        · exact live_iff.2 ⟨_, _, _, _, h⟩
        · obtain ⟨x, y, h⟩ := h3 _ hz
          exact live_iff.2 ⟨_, _, _, _, h⟩
      induction hz with
      | refl => exact ⟨w, by simp, rfl⟩
      | @step b c _ hs ih =>
        obtain ⟨b', hb', rfl⟩ := ih
        obtain ⟨a, ha, haa⟩ := h1.pred hb'
        have := conv b' (c.perm P0312) (by rw [e2]; exact hs) (liv _ hb')
        exact ⟨a, ha, by rw [hinj _ _ _ haa this, e2]⟩
      | @back b c _ hs ih =>
        obtain ⟨b', hb', rfl⟩ := ih
        have lc : Live m (c.perm P0312) := by
          simp only [Mesh.toAdj, Option.map_eq_some_iff] at hs
          obtain ⟨t, ht, -⟩ := hs
          exact Option.isSome_iff_exists.2 ⟨t, ht⟩
        have := conv (c.perm P0312) b' (by rw [e2]; exact hs) lc
        obtain ⟨a, ha, haa⟩ := h1.succ hb'
        simp only [this, Option.some.injEq] at haa
        exact ⟨a, ha, by rw [← haa, e2]⟩
    obtain ⟨z, hz, hzz⟩ := key _ hring
    have : w' = z := by
      have e := congrArg (fun c : Walker => c.perm P0312) hzz
      have : ∀ e, toPerm (toPerm e P0231) P0312 = e := by decide
      simpa only [Walker.perm, this] using e
    rw [this]
    exact hz

/-- What is pushed for a neighbour. -/
theorem targetSucc_of {m : Mesh P V T} (hm : ConsistentT m) {v u : VId} {w : Walker}
    (h : m.edge w = some (v, u)) : ∃ l, (∀ fuel, 12 * m.tets.keys.length + 12 ≤ fuel → targetSucc m fuel w = some l) ∧
      ∀ w', w' ∈ l ↔ ∃ x y, m.tet4 w' = some (v, x, u, y) := by
  obtain ⟨c, d, h⟩ := edge_tet4 h
  obtain ⟨a, h1, h2⟩ := hm.adj_tri (tet4_parts h).2.2.2
  obtain ⟨e, h3⟩ := tri_tet4 h2
  have h4 : m.tet4 a.nfe = some (v, c, u, e) := by
    rw [(walker_moves a).1]
    exact tet4_perm h3 P1203
  obtain ⟨l, k1, k2, k3⟩ := target_cycle hm h4
  refine ⟨(a.nfe :: l).reverse, ?_, ?_⟩
  · intro fuel hf
    rw [targetSucc, h1]
    simp only [Option.bind_eq_bind, Option.bind_some]
    rw [targetLoop_cycle m a.nfe l a.nfe fuel [] k1 (List.nodup_cons.1 k2).1]
    · simp
    · have hsub : (a.nfe :: l) ⊆ (m.tets.keys.flatMap fun k => (List.finRange 12).map fun e => (⟨k, e⟩ : Walker)) := by
        intro x hx
        obtain ⟨p, q, hx⟩ := (k3 x).1 hx
        rw [List.mem_flatMap]
        exact ⟨x.tet, IdMap.mem_keys.2 (tet4_live hx), List.mem_map.2 ⟨x.edge, List.mem_finRange _, rfl⟩⟩
      have := (List.subperm_of_subset k2 hsub).length_le
      simp [List.length_flatMap] at this
      omega
  · intro w'
    rw [List.mem_reverse]
    exact k3 w'

/-! More fuel does not change results. -/

theorem targetLoop_mono (m : Mesh P V T) (a : Walker) : ∀ (n n' : Nat) (k : Walker) (l r : List Walker), n ≤ n' →
    m.targetLoop a n k l = some r → m.targetLoop a n' k l = some r
  | 0, _, _, _, _, _, h => by simp [Mesh.targetLoop] at h
  | n + 1, 0, _, _, _, hn, _ => by omega
  | n + 1, n' + 1, k, l, r, hn, h => by
    rw [Mesh.targetLoop] at h ⊢
    cases hx : m.toAdj (k.perm P3021) with
    | none => simp [hx] at h
    | some x =>
      simp only [hx, Option.bind_eq_bind, Option.bind_some] at h ⊢
      split_ifs at h ⊢ with hc
      · exact targetLoop_mono m a n n' x _ r (by omega) h
      · exact h

theorem targetsNext_mono (m : Mesh P V T) {n n' : Nat} (hn : n ≤ n') (visited : List VId) :
    ∀ (stack : List Walker) r, m.targetsNextAux n visited stack = some r → m.targetsNextAux n' visited stack = some r
  | [], r, h => h
  | w :: rest, r, h => by
    rw [Mesh.targetsNextAux] at h ⊢
    cases hk : m.second w with
    | none => simp [hk] at h
    | some k =>
      simp only [hk, Option.bind_eq_bind, Option.bind_some] at h ⊢
      split_ifs at h ⊢ with hc
      · exact targetsNext_mono m hn visited rest r h
      · obtain ⟨x, h1, h⟩ := Option.bind_eq_some_iff.1 h
        obtain ⟨y, h2, h⟩ := Option.bind_eq_some_iff.1 h
        rw [h1]
        simp only [Option.bind_some]
        rw [targetLoop_mono m _ n n' _ _ y hn h2]
        exact h

theorem targets_yields {m : Mesh P V T} (hm : ConsistentT m) {v : VId} {w : Walker} (hw : m.first w = some v) :
    ∀ fuel, 12 * m.tets.keys.length + 12 ≤ fuel → ∃ ws,
      Yields (m.targetsNext fuel) ⟨[], [w]⟩ ws ∧ (∀ x ∈ ws, m.first x = some v ∧ StarReach m v w.tet x.tet) ∧
      (ws.map m.second).Nodup ∧
      ∀ u, some u ∈ ws.map m.second ↔ ∃ x, m.edge x = some (v, u) ∧ StarReach m v w.tet x.tet := by
  intro fuel hfuel
  let F : Finset VId := (m.tets.keys.flatMap fun k => (List.finRange 12).map fun e => (m.second ⟨k, e⟩).getD 0).toFinset
  have hkey : ∀ x, (m.first x = some v ∧ StarReach m v w.tet x.tet) → ∃ k ∈ F, m.second x = some k := by
    rintro x ⟨hx, -⟩
    obtain ⟨b, c, d, hx⟩ := first_tet4 hx
    refine ⟨b, ?_, tet4_second hx⟩
    rw [List.mem_toFinset, List.mem_flatMap]
    exact ⟨x.tet, IdMap.mem_keys.2 (tet4_live hx), List.mem_map.2 ⟨x.edge, List.mem_finRange _, by
      rw [tet4_second (m := m) (w := ⟨x.tet, x.edge⟩) hx]; rfl⟩⟩
  -- turning around an edge stays in the reachable tets
  have ringReach : ∀ (u : VId) (a b : Walker), (∃ x y, m.tet4 a = some (v, x, u, y)) →
      (∃ x y, m.tet4 b = some (v, x, u, y)) → StarReach m v w.tet a.tet → StarReach m v w.tet b.tet := by
    rintro u a b ⟨x, y, ha⟩ hb hr
    obtain ⟨l, k1, k2, k3⟩ := target_cycle hm ha
    have hbl := (k3 b).2 hb
    have : ∀ (l : List Walker) (c : Walker), StarReach m v w.tet c.tet → (∀ z ∈ c :: l, ∃ x y, m.tet4 z = some (v, x, u, y)) →
        List.IsChain (fun x y => m.toAdj (Walker.perm x P3021) = some y) (c :: l) → ∀ z ∈ c :: l, StarReach m v w.tet z.tet := by
      intro l
      induction l with
      | nil => intro c hc _ _ z hz; simp at hz; exact hz ▸ hc
      | cons d l ih =>
        intro c hc hall hch z hz
        rw [List.isChain_cons_cons] at hch
        rcases List.mem_cons.1 hz with rfl | hz
        · exact hc
        · refine ih d ?_ (fun z hz => hall z (by simp [hz])) hch.2 z hz
          obtain ⟨x, y, hcc⟩ := hall c (by simp)
          have t1 := tet4_perm (tet4_perm hcc P3021) P1203
          have t2 : m.toAdj ((c.perm P3021).perm P1203) = some d.pfe := by
            rw [← (walker_moves _).1, Mesh.toAdj_nfe, hch.1]
            rfl
          exact StarReach.cross (w := (c.perm P3021).perm P1203) (w' := d.pfe) hc (tet4_parts t1).1 t2
    refine this l a hr (fun z hz => (k3 z).1 hz) ?_ b hbl
    rw [RunsThrough] at k1
    exact (List.isChain_append.1 k1).1
  -- crossing the triangle of a walker
  have crossReach : ∀ x y, m.first x = some v → StarReach m v w.tet x.tet → m.toAdj x = some y →
      StarReach m v w.tet y.tet := fun x y hx hr h => .cross hr hx h
  have hsucc : ∀ x, (m.first x = some v ∧ StarReach m v w.tet x.tet) → ∃ l, targetSucc m fuel x = some l ∧
      ∀ y ∈ l, m.first y = some v ∧ StarReach m v w.tet y.tet := by
    rintro x ⟨hx, hr⟩
    obtain ⟨u, c, d, hx4⟩ := first_tet4 hx
    obtain ⟨l, h1, h2⟩ := targetSucc_of hm (tet4_parts hx4).2.2.1
    refine ⟨l, h1 fuel hfuel, ?_⟩
    intro y hy
    obtain ⟨p, q, hy4⟩ := (h2 y).1 hy
    refine ⟨(tet4_parts hy4).1, ?_⟩
    exact ringReach u (x.perm P0312) y ⟨_, _, tet4_perm hx4 P0312⟩ ⟨_, _, hy4⟩ hr
  obtain ⟨ws, h1, h2, h3, -, h5, h6⟩ := dfs_yields hkey hsucc _ [] [w] le_rfl
    (by simpa using ⟨hw, StarReach.refl⟩)
  refine ⟨ws, ?_, h2, ?_, ?_⟩
  · exact h1.conj (next' := m.targetsNext fuel) (fun s => (⟨s.1, s.2⟩ : Mesh.TargetsState)) (fun s => by exact targetsNextAux_eq m fuel s.1 s.2)
  · rw [List.Nodup, List.pairwise_map]
    exact h3
  · -- neighbours of visited neighbours are visited
    have closed : ∀ u y, (∃ x ∈ ws, m.second x = some u) → (∃ z t, HasTri m (z, t, y) ∧
        (z = v ∧ t = u ∨ z = u ∧ t = v)) → ∃ x ∈ ws, m.second x = some y := by
      rintro u y ⟨x, hx, hxu⟩ ⟨z, t, ⟨z', htri⟩, hor⟩
      obtain ⟨hxv, hxr⟩ := h2 x hx
      obtain ⟨u', c, d, hx4⟩ := first_tet4 hxv
      rw [tet4_second hx4] at hxu
      cases hxu
      obtain ⟨l, q1, q2⟩ := targetSucc_of hm (tet4_parts hx4).2.2.1
      have : ∃ y', ∃ s, m.tet4 y' = some (v, y, u, s) := by
        rcases hor with ⟨rfl, rfl⟩ | ⟨rfl, rfl⟩
        · obtain ⟨a, a1, a2⟩ := hm.adj_tri htri
          obtain ⟨e, a3⟩ := tri_tet4 a2
          exact ⟨_, _, tet4_perm a3 P1203⟩
        · obtain ⟨e, a3⟩ := tri_tet4 htri
          exact ⟨_, _, tet4_perm a3 P1203⟩
      obtain ⟨y', s, hy'⟩ := this
      rcases h6 x hx l (q1 fuel hfuel) y' ((q2 y').2 ⟨_, _, hy'⟩) with ⟨x', hx', h⟩ | h
      · exact ⟨x', hx', h.trans (tet4_second hy')⟩
      · simp at h
    intro u
    rw [List.mem_map]
    constructor
    · rintro ⟨x, hx, hu⟩
      obtain ⟨k1, k2⟩ := h2 x hx
      obtain ⟨b, c, d, hx4⟩ := first_tet4 k1
      rw [tet4_second hx4] at hu
      cases hu
      exact ⟨x, (tet4_parts hx4).2.2.1, k2⟩
    · rintro ⟨x, hx, hr⟩
      have all : ∀ k, StarReach m v w.tet k → ∀ y b c d, y.tet = k → m.tet4 y = some (v, b, c, d) →
          (∃ x ∈ ws, m.second x = some b) ∧ (∃ x ∈ ws, m.second x = some c) ∧ (∃ x ∈ ws, m.second x = some d) := by
        have three : ∀ y b c d, m.tet4 y = some (v, b, c, d) →
            ((∃ x ∈ ws, m.second x = some b) ∨ (∃ x ∈ ws, m.second x = some c) ∨ (∃ x ∈ ws, m.second x = some d)) →
            (∃ x ∈ ws, m.second x = some b) ∧ (∃ x ∈ ws, m.second x = some c) ∧ (∃ x ∈ ws, m.second x = some d) := by
          intro y b c d hy h
          have tr : ∀ p a1 b1 c1 d1, m.tet4 (y.perm p) = some (a1, b1, c1, d1) → HasTri m (a1, b1, c1) :=
            fun p a1 b1 c1 d1 h => ⟨_, (tet4_parts h).2.2.2⟩
          have vbc : HasTri m (v, b, c) := tr P0123 _ _ _ _ (tet4_perm hy _)
          have vcd : HasTri m (v, c, d) := tr P0231 _ _ _ _ (tet4_perm hy _)
          have vdb : HasTri m (v, d, b) := tr P0312 _ _ _ _ (tet4_perm hy _)
          have cvb : HasTri m (c, v, b) := tr P2013 _ _ _ _ (tet4_perm hy _)
          have dvc : HasTri m (d, v, c) := tr P3021 _ _ _ _ (tet4_perm hy _)
          have bvd : HasTri m (b, v, d) := tr P1032 _ _ _ _ (tet4_perm hy _)
          rcases h with h | h | h
          · exact ⟨h, closed b c h ⟨_, _, vbc, .inl ⟨rfl, rfl⟩⟩, closed b d h ⟨_, _, bvd, .inr ⟨rfl, rfl⟩⟩⟩
          · exact ⟨closed c b h ⟨_, _, cvb, .inr ⟨rfl, rfl⟩⟩, h, closed c d h ⟨_, _, vcd, .inl ⟨rfl, rfl⟩⟩⟩
          · exact ⟨closed d b h ⟨_, _, vdb, .inl ⟨rfl, rfl⟩⟩, closed d c h ⟨_, _, dvc, .inr ⟨rfl, rfl⟩⟩, h⟩
        -- any walker of the tet will do
        have anyw : ∀ y y' b c d b' c' d', y.tet = y'.tet → m.tet4 y = some (v, b, c, d) →
            m.tet4 y' = some (v, b', c', d') → b' = b ∨ b' = c ∨ b' = d := by
          intro y y' b c d b' c' d' ht hy hy'
          obtain ⟨s, s1, s2⟩ := Mesh.tet4_iff.1 hy
          obtain ⟨s', s3, s4⟩ := Mesh.tet4_iff.1 hy'
          rw [← ht, s1] at s3
          cases s3
          have h1 : SameTet (v, b, c, d) (v, b', c', d') := by
            have := EvenRearr.trans (EvenRearr.symm (s.rearr_tet y.edge)) (s.rearr_tet y'.edge)
            rw [s2, s4] at this
            exact this
          have hb : b' ∈ list4 (v, b, c, d) := (SameTet.mem h1 b').2 (by simp [list4])
          simp only [list4, List.mem_cons, List.not_mem_nil, or_false] at hb
          rcases hb with hb | hb | hb | hb
          · exact absurd hb.symm (hm.ne4 hy').1
          · exact .inl hb
          · exact .inr (.inl hb)
          · exact .inr (.inr hb)
        intro k hk
        induction hk with
        | refl =>
          intro y b c d hy hy4
          apply three y b c d hy4
          obtain ⟨b', c', d', hw4⟩ := first_tet4 hw
          rcases h5 w (by simp) with ⟨x, hx, h⟩ | h
          · rw [tet4_second hw4] at h
            rcases anyw y w b c d b' c' d' hy hy4 hw4 with rfl | rfl | rfl
            · exact .inl ⟨x, hx, h⟩
            · exact .inr (.inl ⟨x, hx, h⟩)
            · exact .inr (.inr ⟨x, hx, h⟩)
          · simp at h
        | @cross y y' hr hf hx ih =>
          intro z b c d hz hz4
          obtain ⟨b0, c0, d0, hy4⟩ := first_tet4 hf
          obtain ⟨i1, i2, i3⟩ := ih y b0 c0 d0 rfl hy4
          obtain ⟨y'', q1, q2⟩ := hm.adj_tri (tet4_parts hy4).2.2.2
          rw [hx] at q1
          cases q1
          obtain ⟨e, q3⟩ := tri_tet4 q2
          have q4 := tet4_perm q3 P1203
          apply three z b c d hz4
          rcases anyw z (y'.perm P1203) b c d _ _ _ hz hz4 q4 with rfl | rfl | rfl
          · exact .inl i2
          · exact .inr (.inl i2)
          · exact .inr (.inr i2)
      obtain ⟨c, d, hx4⟩ := edge_tet4 hx
      exact (all x.tet hr x u c d rfl hx4).1

end Tet
